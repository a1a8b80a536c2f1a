import Verif.Model.Parser
import Verif.Model.Render

/-!
# The unit tests of the rendering, in the model

Tests, not proofs: they compare the model with the results that the repository's own tests
expect of the code. Generated from the Rust sources.
-/

namespace Tests

set_option maxRecDepth 16000

/-- `test_scope_building_without_condition` (`stylist-core/src/ast/mod.rs` 34-103). -/
example : Sheet.toStyleStr ([.block [] [.attr (c! "width") [(c! "100vw")]], .block [[(c! ".inner")]] [.attr (c! "background-color") [(c! "red")]], .rule [(c! "@keyframes move")] [.rule [(c! "from")] [.attr (c! "width") [(c! "100px")]], .rule [(c! "to")] [.attr (c! "width") [(c! "200px")]]]] : Sheet) (some (c! "test")) =
    (c! ".test {\n    width: 100vw;\n}\n.test .inner {\n    background-color: red;\n}\n@keyframes move {\n    from {\n        width: 100px;\n    }\n    to {\n        width: 200px;\n    }\n}\n") := by
  decide +kernel

/-- `test_scope_building_with_condition` (`stylist-core/src/ast/mod.rs` 106-194). -/
example : Sheet.toStyleStr ([.rule [(c! "@media only screen and (min-width: 1000px)")] [.block [] [.attr (c! "width") [(c! "100vw")]], .block [[(c! ".inner")]] [.attr (c! "background-color") [(c! "red")]], .rule [(c! "@keyframes move")] [.rule [(c! "from")] [.attr (c! "width") [(c! "100px")]], .rule [(c! "to")] [.attr (c! "width") [(c! "200px")]]]]] : Sheet) (some (c! "test")) =
    (c! "@media only screen and (min-width: 1000px) {\n    .test {\n        width: 100vw;\n    }\n}\n@media only screen and (min-width: 1000px) {\n    .test .inner {\n        background-color: red;\n    }\n}\n@media only screen and (min-width: 1000px) {\n    @keyframes move {\n        from {\n            width: 100px;\n        }\n        to {\n            width: 200px;\n        }\n    }\n}\n") := by
  decide +kernel

/-- `test_selector_gen_simple` (`stylist-core/src/ast/selector.rs` 69-76). -/
example : Selector.write (some (c! "stylist-abcdefgh")) [(c! ".abc")] =
    (c! ".stylist-abcdefgh .abc") := by
  decide +kernel

/-- `test_selector_pseduo` (`stylist-core/src/ast/selector.rs` 79-86). -/
example : Selector.write (some (c! "stylist-abcdefgh")) [(c! ":hover")] =
    (c! ".stylist-abcdefgh:hover") := by
  decide +kernel

/-- `test_selector_root_pseduo` (`stylist-core/src/ast/selector.rs` 89-96). -/
example : Selector.write (some (c! "stylist-abcdefgh")) [(c! ":root.big")] =
    (c! ".stylist-abcdefgh.big") := by
  decide +kernel

/-- `test_selector_gen_current` (`stylist-core/src/ast/selector.rs` 99-106). -/
example : Selector.write (some (c! "stylist-abcdefgh")) [(c! "&.big")] =
    (c! ".stylist-abcdefgh.big") := by
  decide +kernel

/-- `test_scoped_complex` (`stylist-core/src/lib.rs` 24-89). -/
example : (Css.parse (c! "\n                background-color: black;\n                .with-class {\n                    color: red;\n                }\n                @media screen and (max-width: 600px) {\n                    color: yellow;\n                }\n                @supports (display: grid) {\n                    display: grid;\n                }\n\n                header, footer {\n                    border: 1px solid black;\n\n                    @supports (max-width: 500px) {\n                        max-width: 500px;\n\n                        @media screen and (max-width: 500px) {\n                            display: flex;\n                            flex-direction: row;\n                        }\n                    }\n                }\n            ")).map (fun s => s.toStyleStr (some (c! "test-style-cls"))) =
    some (c! ".test-style-cls {\n    background-color: black;\n}\n.test-style-cls .with-class {\n    color: red;\n}\n@media screen and (max-width: 600px) {\n    .test-style-cls {\n        color: yellow;\n    }\n}\n@supports (display: grid) {\n    .test-style-cls {\n        display: grid;\n    }\n}\n.test-style-cls header, .test-style-cls footer {\n    border: 1px solid black;\n}\n@supports (max-width: 500px) {\n    .test-style-cls header, .test-style-cls footer {\n        max-width: 500px;\n    }\n}\n@supports (max-width: 500px) {\n    @media screen and (max-width: 500px) {\n        .test-style-cls header, .test-style-cls footer {\n            display: flex;\n            flex-direction: row;\n        }\n    }\n}\n") := by
  decide +kernel

/-- `test_complex` (`stylist/src/style.rs` 240-300), with the class name `stylist-x`. -/
example : (Css.parse (c! "\n                background-color: black;\n                .with-class {\n                    color: red;\n                }\n                @media screen and (max-width: 600px) {\n                    color: yellow;\n                }\n                @supports (display: grid) {\n                    display: grid;\n                }\n\n                header, footer {\n                    border: 1px solid black;\n\n                    @supports (max-width: 500px) {\n                        @media screen and (max-width: 500px) {\n                            display: flex;\n                        }\n                    }\n                }\n            ")).map (fun s => s.toStyleStr (some (c! "stylist-x"))) =
    some (c! ".stylist-x {\n    background-color: black;\n}\n.stylist-x .with-class {\n    color: red;\n}\n@media screen and (max-width: 600px) {\n    .stylist-x {\n        color: yellow;\n    }\n}\n@supports (display: grid) {\n    .stylist-x {\n        display: grid;\n    }\n}\n.stylist-x header, .stylist-x footer {\n    border: 1px solid black;\n}\n@supports (max-width: 500px) {\n    @media screen and (max-width: 500px) {\n        .stylist-x header, .stylist-x footer {\n            display: flex;\n        }\n    }\n}\n") := by
  decide +kernel

/-- `test_simple` (`stylist/src/global_style.rs` 107-117). -/
example : (Css.parse (c! "background-color: black;")).map (fun s => s.toStyleStr none) =
    some (c! ":root {\n    background-color: black;\n}\n") := by
  decide +kernel

/-- `test_complex` (`stylist/src/global_style.rs` 120-164). -/
example : (Css.parse (c! "\n                background-color: black;\n                .with-class {\n                    color: red;\n                }\n                @media screen and (max-width: 600px) {\n                    color: yellow;\n                }\n                @supports (display: grid) {\n                    display: grid;\n                }\n\n                header, footer {\n                    border: 1px solid black;\n                }\n            ")).map (fun s => s.toStyleStr none) =
    some (c! ":root {\n    background-color: black;\n}\n.with-class {\n    color: red;\n}\n@media screen and (max-width: 600px) {\n    :root {\n        color: yellow;\n    }\n}\n@supports (display: grid) {\n    :root {\n        display: grid;\n    }\n}\nheader, footer {\n    border: 1px solid black;\n}\n") := by
  decide +kernel

end Tests
