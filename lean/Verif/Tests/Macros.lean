import Verif.Model.Literal
import Verif.Model.Inline
import Verif.Model.Macro
import Verif.Model.Storage
import Verif.Model.Spacing

/-!
# The unit tests of the macros, in the model

Tests, not proofs: they compare the model with the results that the repository's own tests
expect of the code. Generated from the Rust sources.
Expressions are evaluated by the function that each test names.
-/

namespace Tests

open Output Storage

set_option maxRecDepth 16000

/-- `test_simple` (`stylist-macros/src/literal/fstring.rs` 151-160). -/
example : Literal.parseFragments (c! "simple string") = some [.literal (c! "simple string")] := by decide +kernel

/-- `test_complex` (`stylist-macros/src/literal/fstring.rs` 163-176). -/
example : Literal.parseFragments (c! "not so ${simple} string") = some [.literal (c! "not so "), .interpolation (c! "simple"), .literal (c! " string")] := by decide +kernel

/-- `test_invalid` (`stylist-macros/src/literal/fstring.rs` 179-186). -/
example : Literal.parseFragments (c! "${1nvalid} string") = none := by decide +kernel

/-- `test_spacing_iterator` (`stylist-macros/src/spacing_iterator.rs` 3-8). -/
example : Spacing.spaced (fun (_ : Unit) l _ => (if l = 4 then some 2000 else none, ())) [1, 2, 3, 4, 5, 6] () =
    [1, 2, 3, 4, 2000, 5, 6] := by decide +kernel

/-- The text of the style that a macro call makes, for the class name `stylist-x`, if the
expressions have the texts `ρ`. -/
def styleText (ρ : Env) (ts : List Tree) : Option Str :=
  match Macro.expand (fun _ => true) ts with
  | some c => (c.eval ρ none).map (fun t => (eraseSheet t.1).toStyleStr (some (c! "stylist-x")))
  | none => none

/-- The text of an expression that is a literal; other expressions are `other`. -/
def litEnv (other : Str) : Env
  | [.lit _ (some s)] => s
  | [.lit t none] => t
  | _ => other

/-- `test_inline_at_support` (`stylist/tests/inline_at_supports.rs` 2-20). -/
example : styleText (litEnv (c! "")) [.punct '@' false, .ident (c! "supports") false, .group .paren [.ident (c! "display") false, .punct ':' false, .ident (c! "grid") false], .group .brace [.ident (c! "background") false, .punct '-' false, .ident (c! "color") false, .punct ':' false, .ident (c! "grey") false, .punct ';' false]] =
    some (c! "@supports (display:grid) {\n    .stylist-x {\n        background-color: grey;\n    }\n}\n") := by
  decide +kernel

/-- `test_complicated_attributes` (`stylist/tests/inline_complicated_attributes.rs` 2-70). -/
example : styleText (litEnv (c! "")) [.ident (c! "border") false, .punct ':' false, .ident (c! "medium") false, .ident (c! "dashed") false, .ident (c! "green") false, .punct ';' false, .punct '&' true, .punct ':' false, .ident (c! "checked") false, .punct '+' false, .ident (c! "label") false, .group .brace [.ident (c! "color") false, .punct ':' false, .punct '#' false, .lit (c! "9799a7") none, .punct ';' false], .punct '&' true, .punct ':' false, .ident (c! "nth") false, .punct '-' false, .ident (c! "child") false, .group .paren [.punct '-' false, .ident (c! "n") false, .punct '+' false, .lit (c! "4") none], .punct '~' false, .ident (c! "nav") false, .group .brace [.ident (c! "max") false, .punct '-' false, .ident (c! "height") false, .punct ':' false, .lit (c! "500px") none, .punct ';' false], .punct ':' true, .punct ':' false, .ident (c! "first") false, .punct '-' false, .ident (c! "letter") false, .group .brace [.ident (c! "box") false, .punct '-' false, .ident (c! "shadow") false, .punct ':' false, .lit (c! "3px") none, .lit (c! "3px") none, .ident (c! "red") false, .punct ',' false, .punct '-' false, .lit (c! "1rem") none, .lit (c! "0") none, .lit (c! "0.4rem") none, .ident (c! "olive") false, .punct ';' false], .ident (c! "article") false, .ident (c! "span") false, .group .brace [.ident (c! "box") false, .punct '-' false, .ident (c! "shadow") false, .punct ':' false, .ident (c! "inset") false, .lit (c! "0") none, .lit (c! "1px") none, .lit (c! "2px") none, .ident (c! "rgba") false, .group .paren [.lit (c! "0.32") none, .punct ',' false, .lit (c! "0") none, .punct ',' false, .lit (c! "0") none, .punct ',' false, .lit (c! "15") none, .punct '%' false], .punct ';' false], .ident (c! "a") false, .group .bracket [.ident (c! "href") false, .punct '*' true, .punct '=' false, .lit (c! "\"login\"") (some (c! "login"))], .punct ',' false, .ident (c! "a") false, .group .bracket [.ident (c! "href") false, .punct '^' true, .punct '=' false, .lit (c! "\"https://\"") (some (c! "https://"))], .punct ',' false, .ident (c! "a") false, .group .bracket [.ident (c! "rel") false, .punct '~' true, .punct '=' false, .lit (c! "\"tag\"") (some (c! "tag"))], .punct ',' false, .ident (c! "a") false, .group .bracket [.ident (c! "lang") false, .punct '|' true, .punct '=' false, .lit (c! "\"en\"") (some (c! "en"))], .group .brace [.ident (c! "background") false, .punct '-' false, .ident (c! "image") false, .punct ':' false, .ident (c! "url") false, .group .paren [.lit (c! "\"images/pdf.png\"") (some (c! "images/pdf.png"))], .punct ';' false], .punct '#' false, .ident (c! "content") false, .punct ':' true, .punct ':' false, .ident (c! "after") false, .group .brace [.ident (c! "content") false, .punct ':' false, .lit (c! "\" (\"") (some (c! " (")), .ident (c! "attr") false, .group .paren [.ident (c! "x") false], .lit (c! "\")\"") (some (c! ")")), .punct ';' false]] =
    some (c! ".stylist-x {\n    border: medium dashed green;\n}\n.stylist-x:checked+label {\n    color: #9799a7;\n}\n.stylist-x:nth-child(-n+4)~nav {\n    max-height: 500px;\n}\n.stylist-x::first-letter {\n    box-shadow: 3px 3px red,-1rem 0 0.4rem olive;\n}\n.stylist-x article span {\n    box-shadow: inset 0 1px 2px rgba(0.32,0,0,15%);\n}\n.stylist-x a[href *=\"login\"], .stylist-x a[href^=\"https://\"], .stylist-x a[rel~=\"tag\"], .stylist-x a[lang|=\"en\"] {\n    background-image: url(\"images/pdf.png\");\n}\n.stylist-x #content::after {\n    content: \" (\" attr(x) \")\";\n}\n") := by
  decide +kernel

/-- `test_display_impl` (`stylist/tests/inline_display_impl.rs` 18-31). -/
example : styleText (litEnv (c! "none")) [.ident (c! "display") false, .punct ':' false, .punct '$' false, .group .brace [.ident (c! "Foo") false, .punct ':' true, .punct ':' false, .ident (c! "Bar") false], .punct ';' false] =
    some (c! ".stylist-x {\n    display: none;\n}\n") := by
  decide +kernel

/-- `test_nested_at_rule` (`stylist/tests/inline_nested_at_rule.rs` 2-35). -/
example : styleText (litEnv (c! "blue")) [.punct '@' false, .ident (c! "supports") false, .group .paren [.ident (c! "display") false, .punct ':' false, .ident (c! "grid") false], .group .brace [.punct '@' false, .ident (c! "media") false, .ident (c! "print") false, .group .brace [.ident (c! "background") false, .punct '-' false, .ident (c! "color") false, .punct ':' false, .ident (c! "grey") false, .punct ';' false], .punct '@' false, .ident (c! "media") false, .ident (c! "print") false, .group .brace [.ident (c! "color") false, .punct ':' false, .punct '$' false, .group .brace [.ident (c! "dynamic_value") false], .punct ';' false]]] =
    some (c! "@supports (display:grid) {\n    @media print {\n        .stylist-x {\n            background-color: grey;\n        }\n    }\n}\n@supports (display:grid) {\n    @media print {\n        .stylist-x {\n            color: blue;\n        }\n    }\n}\n") := by
  decide +kernel

/-- `test_whitespace_workaround` (`stylist/tests/inline_whitespace_workaround.rs` 2-48). -/
example : styleText (litEnv (c! "")) [.punct '&' true, .punct '.' false, .ident (c! "class") false, .punct '-' false, .ident (c! "a") false, .punct '.' false, .ident (c! "class") false, .punct '-' false, .ident (c! "b") false, .group .brace [.ident (c! "color") false, .punct ':' false, .ident (c! "red") false, .punct ';' false], .punct '&' true, .punct '.' false, .ident (c! "class") false, .punct '-' false, .ident (c! "a") false, .punct '.' false, .ident (c! "class") false, .punct '-' false, .ident (c! "b") false, .group .brace [.ident (c! "color") false, .punct ':' false, .ident (c! "black") false, .punct ';' false], .punct '&' true, .punct '.' false, .ident (c! "class") false, .punct '-' false, .ident (c! "a") false, .punct '*' true, .punct '.' false, .ident (c! "class") false, .punct '-' false, .ident (c! "b") false, .group .brace [.ident (c! "color") false, .punct ':' false, .ident (c! "white") false, .punct ';' false], .punct '&' true, .punct '.' false, .ident (c! "class") false, .punct '-' false, .ident (c! "a") false, .punct '#' false, .ident (c! "content") false, .group .brace [.ident (c! "color") false, .punct ':' false, .ident (c! "white") false, .punct ';' false], .punct '&' false, .ident (c! "p") false, .group .brace [.ident (c! "line") false, .punct '-' false, .ident (c! "height") false, .punct ':' false, .ident (c! "inherit") false, .punct ';' false], .punct '&' false, .punct '*' true, .punct '.' false, .ident (c! "leaving") false, .group .brace [.ident (c! "opacity") false, .punct ':' false, .lit (c! "0") none, .punct ';' false]] =
    some (c! ".stylist-x.class-a.class-b {\n    color: red;\n}\n.stylist-x.class-a.class-b {\n    color: black;\n}\n.stylist-x.class-a *.class-b {\n    color: white;\n}\n.stylist-x.class-a #content {\n    color: white;\n}\n.stylist-x p {\n    line-height: inherit;\n}\n.stylist-x *.leaving {\n    opacity: 0;\n}\n") := by
  decide +kernel

/-- `test_literal_at_support` (`stylist/tests/literal_at_supports.rs` 2-19). -/
example : styleText (litEnv (c! "")) [.lit (c! "r#\"@supports (display:grid) {\n            background-color: grey;\n        }\"#") (some (c! "@supports (display:grid) {\n            background-color: grey;\n        }"))] =
    some (c! "@supports (display:grid) {\n    .stylist-x {\n        background-color: grey;\n    }\n}\n") := by
  decide +kernel

/-- `test_sheet_value_by_ref` (`stylist/tests/literal_css_referenced_value.rs` 2-31). -/
example : styleText (litEnv (c! "red")) [.lit (c! "r#\"\n            color: ${color};\n        \"#") (some (c! "\n            color: ${color};\n        ")), .punct ',' false, .ident (c! "color") false, .punct '=' false, .ident (c! "theme") false, .punct '.' false, .ident (c! "color") false, .punct ',' false] =
    some (c! ".stylist-x {\n    color: red;\n}\n") := by
  decide +kernel

/-- `test_sheet_interpolation` (`stylist/tests/literal_css_tests.rs` 2-47). -/
example : styleText (litEnv (c! "")) [.lit (c! "r#\"\n            color: ${color};\n\n            span, ${sel_div} {\n                background-color: blue;\n            }\n\n            :not(${sel_root}) {\n                background-color: black;\n            }\n\n            @media screen and ${breakpoint} {\n                display: flex;\n            }\n        \"#") (some (c! "\n            color: ${color};\n\n            span, ${sel_div} {\n                background-color: blue;\n            }\n\n            :not(${sel_root}) {\n                background-color: black;\n            }\n\n            @media screen and ${breakpoint} {\n                display: flex;\n            }\n        ")), .punct ',' false, .ident (c! "color") false, .punct '=' false, .lit (c! "\"red\"") (some (c! "red")), .punct ',' false, .ident (c! "sel_div") false, .punct '=' false, .lit (c! "\"div.selected\"") (some (c! "div.selected")), .punct ',' false, .ident (c! "sel_root") false, .punct '=' false, .lit (c! "\"&.highlighted\"") (some (c! "&.highlighted")), .punct ',' false, .ident (c! "breakpoint") false, .punct '=' false, .lit (c! "\"(max-width: 500px)\"") (some (c! "(max-width: 500px)")), .punct ',' false] =
    some (c! ".stylist-x {\n    color: red;\n}\n.stylist-x span, .stylist-x div.selected {\n    background-color: blue;\n}\n:not(.stylist-x.highlighted) {\n    background-color: black;\n}\n@media screen and (max-width: 500px) {\n    .stylist-x {\n        display: flex;\n    }\n}\n") := by
  decide +kernel

/-- `test_sheet_interpolation` (`stylist/tests/literal_sheet_tests.rs` 10-116). -/
example : ((Macro.expand (fun _ => true) [.lit (c! "r#\"\n            background-color: red;\n\n            .nested, ${var_a} {\n                background-color: blue;\n                width: ${size}px;\n            }\n\n            @keyframes myframe {\n                from {\n                    width: 100px;\n                }\n                to {\n                    width: 200px;\n                }\n            }\n\n            @media screen and ${breakpoint} {\n                background-color: brown;\n            }\n        \"#") (some (c! "\n            background-color: red;\n\n            .nested, ${var_a} {\n                background-color: blue;\n                width: ${size}px;\n            }\n\n            @keyframes myframe {\n                from {\n                    width: 100px;\n                }\n                to {\n                    width: 200px;\n                }\n            }\n\n            @media screen and ${breakpoint} {\n                background-color: brown;\n            }\n        ")), .punct ',' false, .ident (c! "var_a") false, .punct '=' false, .lit (c! "\".some-selector\"") (some (c! ".some-selector")), .punct ',' false, .ident (c! "breakpoint") false, .punct '=' false, .lit (c! "\"(max-width: 500px)\"") (some (c! "(max-width: 500px)")), .punct ',' false, .ident (c! "size") false, .punct '=' false, .lit (c! "100") none, .punct ',' false]).bind
      (fun c => (c.eval (litEnv []) none).map (fun t => eraseSheet t.1))) =
    some ([.block [] [.attr (c! "background-color") [(c! "red")]], .block [[(c! ".nested")], [(c! ".some-selector")]] [.attr (c! "background-color") [(c! "blue")], .attr (c! "width") [(c! "100"), (c! "px")]], .rule [(c! "@keyframes myframe")] [.rule [(c! "from")] [.attr (c! "width") [(c! "100px")]], .rule [(c! "to")] [.attr (c! "width") [(c! "200px")]]], .rule [(c! "@media screen and "), (c! "(max-width: 500px)")] [.block [] [.attr (c! "background-color") [(c! "brown")]]]] : Sheet) := by
  decide +kernel

/-- `test_sheet_escaped` (`stylist/tests/literal_sheet_tests.rs` 119-144). -/
example : ((Macro.expand (fun _ => true) [.lit (c! "r#\"\n            .nested, \"$${var_a}\" {\n                content: \"$${var_b}\";\n            }\n        \"#") (some (c! "\n            .nested, \"$${var_a}\" {\n                content: \"$${var_b}\";\n            }\n        ")), .punct ',' false]).bind
      (fun c => (c.eval (litEnv []) none).map (fun t => eraseSheet t.1))) =
    some ([.block [[(c! ".nested")], [(c! "\"${var_a}\"")]] [.attr (c! "content") [(c! "\"${var_b}\"")]]] : Sheet) := by
  decide +kernel

/-- The problems that an inline call reports. -/
def problems (ts : List Tree) : Option (List Inline.IErr) :=
  match Inline.macroFn (fun _ => true) ts with
  | .errors es => some es
  | _ => none

/-- `stylist/tests/inline_integrations/block_in_attribute-fail.rs` and `.stderr`. -/
example : problems [.punct '.' false, .ident (c! "outer") false, .group .brace [.ident (c! "border") false, .punct ':' false, .punct '$' false, .group .brace [.ident (c! "is_an_expression") false], .punct ';' false, .ident (c! "background") false, .punct '-' false, .ident (c! "color") false, .punct ':' false, .group .brace [.ident (c! "should_be_expression") false], .punct ';' false, .ident (c! "color") false, .punct ':' false, .group .brace [.ident (c! "another_expression") false], .punct ';' false]] =
    some [.attrBlock (.block .brace [.tok (.ident [.ident (c! "should_be_expression") false])]),
      .attrBlock (.block .brace [.tok (.ident [.ident (c! "another_expression") false])])] := by with_unfolding_all rfl

/-- `stylist/tests/inline_integrations/illegal_qualifiers-fail.rs` and `.stderr`. -/
example : problems [.group .paren [.ident (c! "not") false, .ident (c! "a") false, .ident (c! "function") false], .lit (c! "42") none, .lit (c! "117.9f32") none, .punct '/' false, .punct '^' false, .punct '@' false, .punct '.' false, .ident (c! "okay") false, .punct ':' true, .punct ':' false, .ident (c! "also") false, .group .paren [.ident (c! "okay") false], .group .brace [.ident (c! "border") false, .punct ':' false, .ident (c! "black") false, .punct ';' false]] =
    some [.selBlock (.block .paren [.tok (.ident [.ident (c! "not") false]), .tok (.ident [.ident (c! "a") false]),
        .tok (.ident [.ident (c! "function") false])]),
      .selLiteral (.tok (.lit (c! "42") none)), .selLiteral (.tok (.lit (c! "117.9f32") none)),
      .selPunct (.tok (.punct '/' false)), .selPunct (.tok (.punct '@' false))] := by with_unfolding_all rfl

/-- `stylist/tests/inline_integrations/nested_blocks-fail.rs` and `.stderr`. -/
example : problems [.punct '.' false, .ident (c! "outer") false, .group .brace [.punct '.' false, .ident (c! "inner") false, .group .brace [.ident (c! "background") false, .punct '-' false, .ident (c! "color") false, .punct ':' false, .ident (c! "red") false, .punct ';' false]]] =
    some [.nested [.tok (.punct '.' false), .tok (.ident [.ident (c! "inner") false])]] := by with_unfolding_all rfl

/-- `stylist/tests/inline_integrations/selector_as_attribute-fail.rs` and `.stderr`. -/
example : (match Inline.macroFn (fun _ => true) [.ident (c! "looks_like_selector") false, .group .paren [], .punct ':' false, .ident (c! "blue") false, .punct ';' false] with
    | .parseError => true
    | _ => false) = true := by
  decide +kernel

/-- `stylist/tests/inline_integrations/unsupported_rule-fail.rs` and `.stderr`. -/
example : problems [.punct '@' false, .ident (c! "page") false, .group .brace [.ident (c! "margin") false, .punct ':' false, .lit (c! "1cm") none, .punct ';' false], .punct '@' false, .ident (c! "property") false, .ident (c! "property") false, .punct '-' false, .ident (c! "name") false, .group .brace [.ident (c! "syntax") false, .punct ':' false, .lit (c! "\"<color>\"") (some (c! "<color>")), .punct ';' false, .ident (c! "inherits") false, .punct ':' false, .ident (c! "false") false, .punct ';' false, .ident (c! "initial") false, .punct '-' false, .ident (c! "value") false, .punct ':' false, .punct '#' false, .ident (c! "c0ffee") false, .punct ';' false], .punct '@' false, .ident (c! "completely") false, .punct '-' false, .ident (c! "unknown") false, .group .brace [.ident (c! "some") false, .punct '-' false, .ident (c! "attribute") false, .punct ':' false, .ident (c! "foo") false, .punct '-' false, .ident (c! "value") false, .punct ';' false]] =
    some [.atRule [.ident (c! "page") false], .atRule [.ident (c! "property") false],
      .atRule [.ident (c! "completely") false, .dash false, .ident (c! "unknown") false]] := by with_unfolding_all rfl

/-- `stylist/tests/literal_integrations/unused_argument-fail.rs` and `.stderr`. -/
example : (Literal.macroFn [.lit (c! "r#\"\n        background: ${used};\n    \"#") (some (c! "\n        background: ${used};\n    ")), .punct ',' false, .ident (c! "unused") false, .punct '=' false, .lit (c! "1000") none, .punct ',' false, .ident (c! "used") false, .punct '=' false, .lit (c! "\"black\"") (some (c! "black"))]).isNone = true := by
  decide +kernel

end Tests
