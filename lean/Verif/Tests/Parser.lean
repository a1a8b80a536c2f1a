import Verif.Model.Parser
import Verif.Model.Render

/-!
# The unit tests of the parser, in the model

Tests, not proofs: they compare the model with the results that the repository's own tests
expect of the code. Generated from the Rust sources.
-/

namespace Tests

set_option maxRecDepth 16000

/-- `test_whitespace` (`stylist-core/src/parser.rs` 557-565). -/
example : Css.sp (c! " \n\n\t\t\t/* comment */rest") = some ((c! "rest"), (c! " \n\n\t\t\t/* comment */")) := by decide +kernel

/-- `test_empty_rule` (`stylist-core/src/parser.rs` 568-575). -/
example : Css.parse (c! "") =
    some ([] : Sheet) := by
  decide +kernel

/-- `test_simple_example` (`stylist-core/src/parser.rs` 578-617). -/
example : Css.parse (c! "\n            background-color: red;\n\n            .nested {\n                background-color: blue;\n                width: 100px;\n            }") =
    some ([.block [] [.attr (c! "background-color") [(c! "red")]], .block [[(c! ".nested")]] [.attr (c! "background-color") [(c! "blue")], .attr (c! "width") [(c! "100px")]]] : Sheet) := by
  decide +kernel

/-- `test_simple_selector_with_at` (`stylist-core/src/parser.rs` 620-669). -/
example : Css.parse (c! "\n            background-color: red;\n            content: \";\";\n\n            [placeholder=\"someone@example.com\"] {\n                background-color: blue;\n                width: 100px;\n            }") =
    some ([.block [] [.attr (c! "background-color") [(c! "red")], .attr (c! "content") [(c! "\";\"")]], .block [[(c! "[placeholder=\"someone@example.com\"]")]] [.attr (c! "background-color") [(c! "blue")], .attr (c! "width") [(c! "100px")]]] : Sheet) := by
  decide +kernel

/-- `test_simple_escape` (`stylist-core/src/parser.rs` 672-699). -/
example : Css.parse (c! "\n            [placeholder=\"\\\" {}\"] {\n                background-color: blue;\n                width: 100px;\n            }") =
    some ([.block [[(c! "[placeholder=\"\\\" {}\"]")]] [.attr (c! "background-color") [(c! "blue")], .attr (c! "width") [(c! "100px")]]] : Sheet) := by
  decide +kernel

/-- `test_rule_with_ampersand` (`stylist-core/src/parser.rs` 702-720). -/
example : Css.parse (c! "\n            &:hover {\n                background-color: #d0d0d9;\n            }") =
    some ([.block [[(c! "&:hover")]] [.attr (c! "background-color") [(c! "#d0d0d9")]]] : Sheet) := by
  decide +kernel

/-- `test_multiple_media_queries` (`stylist-core/src/parser.rs` 723-776). -/
example : Css.parse (c! "\n                @media screen and (max-width: 500px) {\n                    background-color: red;\n                }\n\n                @media screen and (max-width: 200px) {\n                    color: yellow;\n                }\n\n            ") =
    some ([.rule [(c! "@media "), (c! "screen and (max-width: 500px)")] [.block [] [.attr (c! "background-color") [(c! "red")]]], .rule [(c! "@media "), (c! "screen and (max-width: 200px)")] [.block [] [.attr (c! "color") [(c! "yellow")]]]] : Sheet) := by
  decide +kernel

/-- `test_media_query_then_normal_class` (`stylist-core/src/parser.rs` 779-825). -/
example : Css.parse (c! "\n                @media screen and (max-width: 500px) {\n                    background-color: red;\n                }\n\n                .some-class2 {\n                    color: yellow;\n                }\n\n            ") =
    some ([.rule [(c! "@media "), (c! "screen and (max-width: 500px)")] [.block [] [.attr (c! "background-color") [(c! "red")]]], .block [[(c! ".some-class2")]] [.attr (c! "color") [(c! "yellow")]]] : Sheet) := by
  decide +kernel

/-- `test_selector_list` (`stylist-core/src/parser.rs` 828-867). -/
example : Css.parse (c! "\n                div, span {\n                    color: yellow;\n                }\n\n                &, & input {\n                    color: pink;\n                }\n\n            ") =
    some ([.block [[(c! "div")], [(c! "span")]] [.attr (c! "color") [(c! "yellow")]], .block [[(c! "&")], [(c! "& input")]] [.attr (c! "color") [(c! "pink")]]] : Sheet) := by
  decide +kernel

/-- `test_container_rule` (`stylist-core/src/parser.rs` 870-902). -/
example : Css.parse (c! "\n                @container (min-width: 200px) {\n                    background: #000;\n                }\n\n            ") =
    some ([.rule [(c! "@container "), (c! "(min-width: 200px)")] [.block [] [.attr (c! "background") [(c! "#000")]]]] : Sheet) := by
  decide +kernel

/-- `test_supports_rule` (`stylist-core/src/parser.rs` 905-981). -/
example : Css.parse (c! "\n                @supports (backdrop-filter: blur(2px)) or (-webkit-backdrop-filter: blur(2px)) {\n                    backdrop-filter: blur(2px);\n                    -webkit-backdrop-filter: blur(2px);\n                    background-color: rgb(0, 0, 0, 0.7);\n                }\n\n                @supports not ((backdrop-filter: blur(2px)) or (-webkit-backdrop-filter: blur(2px))) {\n                    background-color: rgb(25, 25, 25);\n                }\n\n            ") =
    some ([.rule [(c! "@supports "), (c! "(backdrop-filter: blur(2px)) or (-webkit-backdrop-filter: blur(2px))")] [.block [] [.attr (c! "backdrop-filter") [(c! "blur(2px)")], .attr (c! "-webkit-backdrop-filter") [(c! "blur(2px)")], .attr (c! "background-color") [(c! "rgb(0, 0, 0, 0.7)")]]], .rule [(c! "@supports "), (c! "not ((backdrop-filter: blur(2px)) or (-webkit-backdrop-filter: blur(2px)))")] [.block [] [.attr (c! "background-color") [(c! "rgb(25, 25, 25)")]]]] : Sheet) := by
  decide +kernel

/-- `test_selectors_list_2` (`stylist-core/src/parser.rs` 984-994). -/
example : (Css.selector (c! "&")).map (fun m => m.2) = some [(c! "&")] := by decide +kernel

/-- `test_selectors_list_2` (`stylist-core/src/parser.rs` 984-994). -/
example : (Css.selector (c! "& input")).map (fun m => m.2) = some [(c! "& input")] := by decide +kernel

/-- `test_interpolation` (`stylist-core/src/parser.rs` 997-1040). -/
example : Css.parse (c! "\n            background-color: red;\n\n            .nested, ${var_a} {\n                background-color: blue;\n                width: 100px;\n            }") =
    some ([.block [] [.attr (c! "background-color") [(c! "red")]], .block [[(c! ".nested")], [(c! "${var_a}")]] [.attr (c! "background-color") [(c! "blue")], .attr (c! "width") [(c! "100px")]]] : Sheet) := by
  decide +kernel

/-- `test_empty_block` (`stylist-core/src/parser.rs` 1043-1053). -/
example : Css.parse (c! ".nested {}") =
    some ([.block [[(c! ".nested")]] []] : Sheet) := by
  decide +kernel

/-- `test_dense_style` (`stylist-core/src/parser.rs` 1056-1092). -/
example : Css.parse (c! "@media print{color:black;.nested{cursor:none;}}") =
    some ([.rule [(c! "@media "), (c! "print")] [.block [] [.attr (c! "color") [(c! "black")]], .block [[(c! ".nested")]] [.attr (c! "cursor") [(c! "none")]]]] : Sheet) := by
  decide +kernel

/-- `test_issue_36` (`stylist-core/src/parser.rs` 1095-1132). -/
example : Css.parse (c! "\n  position: fixed; /* Stay in place */\n  z-index: 1; /* Sit on top */\n  width: 100%; /* Full width */\n  height: 100%; /* Full height */\n        ") =
    some ([.block [] [.attr (c! "position") [(c! "fixed")], .attr (c! "z-index") [(c! "1")], .attr (c! "width") [(c! "100%")], .attr (c! "height") [(c! "100%")]]] : Sheet) := by
  decide +kernel

/-- `test_empty_media_rule` (`stylist-core/src/parser.rs` 1135-1145). -/
example : Css.parse (c! "@media screen and (max-width: 500px) {}") =
    some ([.rule [(c! "@media "), (c! "screen and (max-width: 500px)")] []] : Sheet) := by
  decide +kernel

/-- `test_empty` (`stylist-core/src/parser.rs` 1148-1155). -/
example : Css.parse (c! "") =
    some ([] : Sheet) := by
  decide +kernel

/-- `test_pseudo_sel` (`stylist-core/src/parser.rs` 1158-1225). -/
example : Css.parse (c! "\n                color: ${color};\n\n                span, ${sel_div} {\n                    background-color: blue;\n                }\n\n                :not(${sel_root}) {\n                    background-color: black;\n                }\n\n                @media screen and ${breakpoint} {\n                    display: flex;\n                }\n            ") =
    some ([.block [] [.attr (c! "color") [(c! "${color}")]], .block [[(c! "span")], [(c! "${sel_div}")]] [.attr (c! "background-color") [(c! "blue")]], .block [[(c! ":not(${sel_root})")]] [.attr (c! "background-color") [(c! "black")]], .rule [(c! "@media "), (c! "screen and ${breakpoint}")] [.block [] [.attr (c! "display") [(c! "flex")]]]] : Sheet) := by
  decide +kernel

/-- `test_comment` (`stylist-core/src/parser.rs` 1228-1300). -/
example : Css.parse (c! "\n                /* some comment */ /* another comment */\n                color: /**/${color};\n\n                span, ${sel_div} {\n                    /* comment before block */\n                    background-color /* comment before colon */ : blue /* comment after attribute */;\n                    /* comment after block */\n                }\n\n                :not(${sel_root}) {\n                    background-color: black;\n                }\n\n                @media screen and ${breakpoint} {\n                    /* a comment with * */\n                    display: flex;\n                }\n                /* end comment */\n            ") =
    some ([.block [] [.attr (c! "color") [(c! "${color}")]], .block [[(c! "span")], [(c! "${sel_div}")]] [.attr (c! "background-color") [(c! "blue")]], .block [[(c! ":not(${sel_root})")]] [.attr (c! "background-color") [(c! "black")]], .rule [(c! "@media "), (c! "screen and ${breakpoint}")] [.block [] [.attr (c! "display") [(c! "flex")]]]] : Sheet) := by
  decide +kernel

/-- `test_pseudo_sel_escaped` (`stylist-core/src/parser.rs` 1303-1370). -/
example : Css.parse (c! "\n                color: \"$${color}\";\n\n                span, ${sel_div} {\n                    background-color: blue;\n                }\n\n                :not(${sel_root}) {\n                    background-color: black;\n                }\n\n                @media screen and ${breakpoint} {\n                    display: flex;\n                }\n            ") =
    some ([.block [] [.attr (c! "color") [(c! "\"$${color}\"")]], .block [[(c! "span")], [(c! "${sel_div}")]] [.attr (c! "background-color") [(c! "blue")]], .block [[(c! ":not(${sel_root})")]] [.attr (c! "background-color") [(c! "black")]], .rule [(c! "@media "), (c! "screen and ${breakpoint}")] [.block [] [.attr (c! "display") [(c! "flex")]]]] : Sheet) := by
  decide +kernel

/-- `test_rule_block` (`stylist-core/src/parser.rs` 1373-1458). -/
example : Css.parse (c! "\n                span {\n                    @media screen and (max-width: 500px) {\n                        background-color: blue;\n                    }\n                }\n\n                div {\n                    @supports (max-width: 500px) {\n                        @media screen and (max-width: 500px) {\n                            background-color: blue;\n                        }\n                    }\n                }\n\n                @media screen and ${breakpoint} {\n                    display: flex;\n                }\n            ") =
    some ([.block [[(c! "span")]] [.rule [(c! "@media "), (c! "screen and (max-width: 500px)")] [.attr (c! "background-color") [(c! "blue")]]], .block [[(c! "div")]] [.rule [(c! "@supports "), (c! "(max-width: 500px)")] [.rule [(c! "@media "), (c! "screen and (max-width: 500px)")] [.attr (c! "background-color") [(c! "blue")]]]], .rule [(c! "@media "), (c! "screen and ${breakpoint}")] [.block [] [.attr (c! "display") [(c! "flex")]]]] : Sheet) := by
  decide +kernel

/-- `test_slash_parsing` (`stylist-core/src/parser.rs` 1461-1495). -/
example : Css.parse (c! "\n            grid-row: 1 / 3;\n            grid-row: 1/3;\n            grid-row: 1/ 3;\n            grid-row: 1 /3;\n        ") =
    some ([.block [] [.attr (c! "grid-row") [(c! "1 / 3")], .attr (c! "grid-row") [(c! "1/3")], .attr (c! "grid-row") [(c! "1/ 3")], .attr (c! "grid-row") [(c! "1 /3")]]] : Sheet) := by
  decide +kernel

/-- `test_url` (`stylist-core/src/parser.rs` 1498-1515). -/
example : Css.parse (c! "\n            background-image: url(https://example.com/example.jpg);\n        ") =
    some ([.block [] [.attr (c! "background-image") [(c! "url(https://example.com/example.jpg)")]]] : Sheet) := by
  decide +kernel

end Tests
