import Verif.Model.Manager

/-!
# Static markup

Models `StyleData::write_static_markup` (`packages/stylist/src/manager/ssr.rs` 46-63).
-/

namespace Manager

/-- `write_static_markup` (`manager/ssr.rs` 47-62). `esc` is
`html_escape::encode_style`, which is not part of the repository. The writer never
fails. -/
def writeStaticMarkup (esc : Str → Str) : List Entry → Str
  | [] => []
  | e :: es =>
    c! "<style data-style=\"" ++ e.id ++ c! "\">" ++ esc e.text ++ c! "</style>" ++ writeStaticMarkup esc es

end Manager
