import Verif.Proofs.Writer
import Verif.Props.Hydration

/-!
# Writing the markup when the writer fails

C115, about `StyleData::write_static_markup`.
-/

namespace Manager

variable {σ : Type}

/-- Two styles for the examples. -/
def twoStyles : List Entry :=
  [⟨⟨false, c! "a", demoRed⟩, c! "a-0", c! ".a-0{}"⟩, ⟨⟨false, c! "a", []⟩, c! "a-1", c! ".a-1 p{}"⟩]

/-- **C115**, for every writer, whatever it does: it is given the markup piece by piece, in order.
If all of its writes return `Ok`, it was given all of the markup, and so is the result. Otherwise
it was given nothing after the first piece for which it returned an error, and the result is an
error. -/
theorem C115_stops_at_error (w : Writer σ) (esc : Str → Str) (data : List Entry) (st : σ) :
    let given := (w.logged.markup esc data (st, [])).1.2
    (w.logged.markup esc data (st, [])).2 = (w.markup esc data st).2 ∧
    ((w.markup esc data st).2 = true → given.flatten = writeStaticMarkup esc data) ∧
    ((w.markup esc data st).2 = false → ∃ before piece, given = before ++ [piece] ∧
      given.flatten <+: writeStaticMarkup esc data ∧
      (w.writeAll before st).2 = true ∧ (w.writeStr (w.writeAll before st).1 piece).2 = false) := by
  simp only [Writer.markup_eq, ← flatten_pieces]
  obtain ⟨-, h2, k, h3, h4, h5, h6⟩ := logged_spec w (pieces esc data) st []
  rw [h4, List.nil_append]
  refine ⟨h2, fun h => by rw [h5 h, List.take_length], fun h => ?_⟩
  obtain ⟨pre, x, h7, h8, h9⟩ := h6 h
  refine ⟨pre, x, h7, ?_, h8, h9⟩
  refine ⟨((pieces esc data).drop k).flatten, ?_⟩
  rw [← List.flatten_append, List.take_append_drop]

/-- A writer that fails when it is given a line break, and takes nothing before. -/
def fussyWriter : Writer Nat := ⟨fun n s => (n + 1, !List.elem '\n' s)⟩

/-- Non-vacuity: a text with a line break. -/
example : (fussyWriter.markup id twoStyles 0) = (10, true) ∧
    (fussyWriter.markup (· ++ ['\n']) twoStyles 0) = (4, false) ∧
    (fussyWriter.logged.markup (· ++ ['\n']) twoStyles (0, [])).1.2 =
      [c! "<style data-style=\"", c! "a-0", c! "\">", c! ".a-0{}\n"] := by decide +kernel

/-- **C115**, for a `String`: it gets the markup of C32, and the result is `Ok`. -/
theorem C115_string (esc : Str → Str) (data : List Entry) (before : Str) :
    stringWriter.markup esc data before = (before ++ writeStaticMarkup esc data, true) := by
  rw [Writer.markup_eq, string_all, flatten_pieces]

/-- **C115**, for writers that keep what they are given, such as files, sockets and buffers: after
an `Ok` all of the markup has been added, after an error the beginning of it. -/
theorem C115_kept (w : Writer σ) (content : σ → Str) (hw : w.Keeps content) (esc : Str → Str) (data : List Entry) (st : σ) :
    ((w.markup esc data st).2 = true →
      content (w.markup esc data st).1 = content st ++ writeStaticMarkup esc data) ∧
    ((w.markup esc data st).2 = false → ∃ part, part <+: writeStaticMarkup esc data ∧
      content (w.markup esc data st).1 = content st ++ part) := by
  rw [Writer.markup_eq, ← flatten_pieces]
  exact keeps_all hw _ _

/-- Non-vacuity: a `String` and a buffer are such writers. -/
example : stringWriter.Keeps id ∧ (bufferWriter 30).Keeps id := ⟨keeps_string, keeps_buffer 30⟩

/-- **C115**, for a buffer of `n` characters: there is an error exactly if the markup does not
fit. -/
theorem C115_buffer (n : Nat) (esc : Str → Str) (data : List Entry) :
    (bufferWriter n).markup esc data [] =
      ((writeStaticMarkup esc data).take n, decide ((writeStaticMarkup esc data).length ≤ n)) := by
  rw [Writer.markup_eq, buffer_all _ _ _ (Nat.zero_le n), flatten_pieces]
  simp

example : (bufferWriter 46).markup id twoStyles [] =
    (c! "<style data-style=\"a-0\">.a-0{}</style><style d", false) := by decide +kernel

/-- **C115**, what a browser makes of a page that ends somewhere in the markup, because the server
failed at any point or the connection broke: a number of styles is whole, each with its own
class and text, and these are exactly the first ones whose markup has arrived. Of the next
style there is nothing, or one element with its class and the beginning of its text (and
perhaps of the end tag). Of the others there is nothing. -/
theorem C115_cut_page (esc : Str → Str) (data : List Entry) (hesc : ∀ t, Html.endTags (esc t) = 0)
    (hid : ∀ e ∈ data, '"' ∉ e.id) (page : Str) (hp : page <+: writeStaticMarkup esc data) :
    ∃ whole rest cut, data = whole ++ rest ∧
      Html.readCut data.length page = whole.map (fun e => (e.id, esc e.text)) ++ cut ∧
      writeStaticMarkup esc whole <+: page ∧ (∀ e more, rest = e :: more → ¬ writeStaticMarkup esc (whole ++ [e]) <+: page) ∧
      (cut = [] ∨ ∃ e more text, rest = e :: more ∧ cut = [(e.id, text)] ∧ text <+: esc e.text ++ c! "</style") := by
  obtain ⟨k, rfl⟩ : ∃ k, page = (writeStaticMarkup esc data).take k := ⟨page.length, List.prefix_iff_eq_take.1 hp⟩
  obtain ⟨whole, rest, cut, h1, h2, h3, h4, h5⟩ :=
    Html.readCut_markup esc data data.length k (Nat.le_refl _) (fun e he => ⟨hid e he, hesc _⟩)
  have hpre : writeStaticMarkup esc whole <+: writeStaticMarkup esc data := by
    rw [h1, ← flatten_pieces, ← flatten_pieces]
    refine ⟨(pieces esc rest).flatten, ?_⟩
    rw [← List.flatten_append]
    simp [pieces]
  refine ⟨whole, rest, cut, h1, h2, ?_, fun e more hr hc => ?_, h5⟩
  · exact List.prefix_take_iff.2 ⟨hpre, h3⟩
  · have h6 := h4 (by rw [hr]; simp)
    rw [hr] at h6
    have h7 := hc.length_le
    simp only [List.take_succ_cons, List.take_zero, List.length_take] at h6 h7
    omega

/-- Non-vacuity: an escaper and two styles; the second one is cut in its tag, in its text and in
its end tag. -/
example : (∀ t, Html.endTags ((fun t : Str => t.filter (· != '<')) t) = 0) ∧ (∀ e ∈ twoStyles, '"' ∉ e.id) ∧
    (let cut := fun k => Html.readCut 2 ((writeStaticMarkup (fun t => t.filter (· != '<')) twoStyles).take k)
     cut 45 = [(c! "a-0", c! ".a-0{}")] ∧ cut 65 = [(c! "a-0", c! ".a-0{}"), (c! "a-1", c! ".a-")] ∧
     cut 75 = [(c! "a-0", c! ".a-0{}"), (c! "a-1", c! ".a-1 p{}</sty")] ∧
     cut 79 = [(c! "a-0", c! ".a-0{}"), (c! "a-1", c! ".a-1 p{}")]) :=
  ⟨fun t => by
    have := Html.endTags_free (s := t.filter (· != '<')) [] (by simp)
    simpa [Html.endTags] using this, by decide, by decide +kernel⟩

/-- **C115**, the whole page: read by this reader it is what C32 says. -/
theorem C115_whole_page (esc : Str → Str) (data : List Entry) (hesc : ∀ t, Html.endTags (esc t) = 0)
    (hid : ∀ e ∈ data, '"' ∉ e.id) :
    Html.readCut data.length (writeStaticMarkup esc data) = data.map fun e => (e.id, esc e.text) := by
  obtain ⟨whole, rest, cut, h1, h2, h3, h4, h5⟩ := C115_cut_page esc data hesc hid _ (List.prefix_refl _)
  have hr : rest = [] := by
    cases rest with
    | nil => rfl
    | cons e more =>
      refine absurd ?_ (h4 e more rfl)
      rw [h1, ← flatten_pieces, ← flatten_pieces]
      refine ⟨(pieces esc more).flatten, ?_⟩
      rw [← List.flatten_append]
      simp [pieces]
  subst hr
  rcases h5 with rfl | ⟨e, more, text, h, _⟩
  · rw [h2, h1]; simp
  · cases h

end Manager
