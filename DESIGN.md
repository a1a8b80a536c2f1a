# Formal model of stylist-rs: design

This directory holds a Lean 4 model of `futursolo/stylist-rs` (source in `/repo`) and
machine-checked proofs of the properties listed in `properties.jsonl`. `MANIFEST.json`
maps each property to its theorems. `seeded/LOG.jsonl` records how the theorems were
tested against wrong programs.

## Trusted base

1. **Lean's kernel** (Lean 4.33.0). No own axioms, no `sorry`, no `native_decide`, no
   `bv_decide`. Mathlib is not used. The theorems depend at most on Lean's three standard
   axioms `propext`, `Quot.sound` and `Classical.choice`; the table "Axioms" below says
   which theorem uses which, as printed by `#print axioms`.
2. **The correspondence between `lean/Verif/Model` and the Rust source.** Each definition
   cites the file and lines it models and says where it simplifies. This is by reading;
   nothing is extracted, and the code was not run. `Verif/Tests/*.lean` evaluates the model
   on the inputs of the repository's own unit tests and checks the results those tests
   expect.
3. **What is outside the repository**, as written down in the model (next section but
   one).
4. **The statements**: the theorems in `lean/Verif/Props` and the specifications in
   `lean/Verif/Spec` they use. A statement can be read without the proofs.

## Layout

* `Verif/Base.lean`: strings as lists of characters, `str` library functions.
* `Verif/Model/*.lean`: the code, function by function.
* `Verif/Spec/*.lean`: small independent specifications used in statements.
* `Verif/Proofs/*.lean`: lemmas.
* `Verif/Props/*.lean`: the property theorems, each beside a concrete instance showing
  that its hypotheses are met.
* `Verif/Tests/*.lean`: the repository's unit tests, evaluated in the model.

Names: `Cnn_…` is a theorem for property `Cnn`. `Cnn_…_partial` proves a part,
`Cnn_false…` proves the negation by a concrete witness, `Cnn_limit_…` shows that a
hypothesis of another theorem cannot be dropped.

## What is modelled

| source (`/repo/packages`) | model |
|---|---|
| `stylist-core/src/ast/*.rs` (tree, `write_style`, contexts) | `Model/Ast`, `Model/Render`, on a limited stack `Model/RenderStack`, with a counter `Model/RenderSteps`; with its pointers and derived traits in `Model/Storage` |
| `stylist-core/src/ast/sheet.rs` (`FromStr` with its cache) | `Model/Cache`, also with threads |
| `stylist-core/src/bow.rs` | `Model/Storage` |
| `stylist-core/src/parser.rs` | `Model/Parser` on `Model/Nom`, with a counter `Model/Steps`, on a limited stack `Model/Depth`, with the report of errors `Model/Report` |
| `stylist/src/manager/{mod,key,registry,content,ssr}.rs`, `style.rs`, `global_style.rs`, `style_src.rs`, `utils.rs`, `arch.rs` | `Model/Manager` on `Model/Dom`, with reference counts `Model/Counts`, with random ids `Model/Random`, with the builder of managers `Model/Builder`; `Model/Markup`, for writers that fail `Model/Writer`; serialization in `Model/Storage`, in bytes in `Model/Compact` |
| `stylist/src/utils.rs` (`get_entropy`), `style.rs`, `manager/ssr.rs` with several threads | `Model/Threads`; with their locks and the parse cache `Model/Locks` |
| `stylist/src/yew/global.rs`, `yew/hooks/use_style.rs` | `Model/Yew` |
| `stylist/src/yew/provider.rs`, `yew/mod.rs` (`Classes`), `style_src.rs` (`into_style`), `StyleManager::default`; `stylist-macros/src/styled_component_impl.rs` (the `css!` it defines) | `Model/Context` |
| `stylist/src/yew/hooks/use_media_query.rs` | `Model/Media` |
| `stylist-macros/src/literal/*.rs` | `Model/Literal`, `Model/LiteralErrors` |
| `stylist-macros/src/output/*.rs` | `Model/Output` |
| `stylist-macros/src/spacing_iterator.rs` | `Model/Spacing` |
| `stylist-macros/src/inline/**` | `Model/Tokens`, `Model/Inline` |
| `stylist-macros/src/sheet.rs` | `Model/Macro` |
| `stylist-macros/src/styled_component.rs`, `styled_component_impl.rs` | `Model/Styled` (names and moves), `Model/Context`, `Model/Sources` (which manager when) |

Not modelled:

* the wording of compile errors (which error it is and its values: C88, C90); that of errors and panics at run time is modelled (C85, C107), spans, `traced_context` and logging, `Debug` and `Display`;
* of the feature `debug_style_locations`, where the location of a source comes from
  (`#[track_caller]`); the class that it adds is in `Model/Classes` (C97), and in `Model/Yew` it
  takes part in the equality of sources (`Comp.tag`);
* `use_style.rs`, `css.rs`, `style.rs`, `global_style.rs` of `stylist-macros`: wrappers that
  put the emitted sheet into a call of a modelled function;
* `IntoPropValue` for `Classes` and `StyleSource`: the same as `From` and `TryFrom`, which
  are modelled;
* time and memory: termination is proved (C11, C45), the steps of the css parser (C84) and of rendering (C110) are bounded, and so are the stack that both need (C95, C109) and the length of the text (C106); the cost of all else, of error messages and of the heap is not;
* `ast/mod.rs`, `lib.rs`, `macros.rs`: re-exports and documentation.

## What is assumed about code outside the repository

* **Rust's `str`, `HashMap`, `Rc`/`Weak`, `RefCell`, `Mutex`.** Strings are `List Char`; a
  `HashMap` is an association list with unique keys, and where one is dropped its entries
  go in list order (no theorem depends on the order: C25 and C28 speak about the result).
  A strong count is the number of references that exist, `Drop` runs in the operation that
  removes the last one; that counting them as the code does comes to the same is C111. A panic unwinds, releases `RefCell` borrows and poisons a `Mutex`
  held.
* **nom 7** (`Model/Nom`): the combinators used, on complete input; error payloads are
  dropped, except in `Model/Report`, which follows the one error that can leave the outermost
  `many0`, its `context` entries and the text of `convert_error`.
* **The browser** (`Model/Dom`): ordered children per container; `append_child`,
  `insert_before`, `query_selector("style[data-style=ID]")` in document order, removal
  through the parent element. Containers are not nested. A selector built from an id that is
  not a CSS identifier finds an arbitrary node (`Env.oddQuery`). A browser call may fail at
  any time (`fault`).
* **Names in Rust** (`Model/Styled`): local variables are compared with their marks and looked
  up from the inside to the outside; where the definition of a `macro_rules!` is passed, a mark
  of this macro is taken off; a function does not see the variables around it; a `macro_rules!`
  counts from its definition to the end of the block, also in functions there. `Span::mixed_site`
  gives local variables the mark of the expansion. A closure with `move` takes what it mentions.
* **`get_entropy`**: a sequence of texts (`Env.entropy`); theorems that need more say
  `FreshIds` (`Spec/Entropy`): the counter, which wraps at 2^64, has not wrapped or, with the
  feature `random`, the results used are distinct. How often they are, and classes with them, is
  counted in C118 (`Model/Random`) over all sequences of results of `fastrand::u8(..62)`; that
  these are equally likely is not modelled.
* **serde**: derived `Serialize`/`Deserialize` on serde's data model, sequences and
  structs in field order (`Model/Storage`); the concrete format is a parameter that
  round-trips that data model. For bincode, which yew uses, bytes are modelled
  (`Model/Compact`, C113): `serialize` and `deserialize` of version 1 with their default options.
* **`html_escape::encode_style`**: a function that leaves no `</style` behind (C32 states
  what it needs as a hypothesis).
* **syn, proc-macro2, litrs, quote**: token trees without spans and without groups of
  delimiter `None`; whether tokens between `${` and `}` are an expression is an oracle
  `isExpr`, and tokens left over after it are an error; the value of a string literal is
  given. The code trees of `Model/Output` mean what the Rust expressions they stand for
  evaluate to: `evalStr` and following for expressions that are pure within one evaluation,
  `Model/Evaluation` for expressions with effects. Trusted there: fields of a struct, items
  of `vec!` and arguments are evaluated in the order written, and an expression sees the
  names imported by the blocks around it.
* **Yew**: `use_memo`, `use_context`, `use_state_eq`, `use_effect_with`,
  `use_prepared_state!` and `use_transitive_state!` as described at the top of
  `Model/Yew`, `Model/Context` and `Model/Media`. In which order `use_memo` drops the old value, its
  dependencies and makes the new one is left open, and the theorems hold for every order.
* **Threads** (C17, C67, C114, C116, C117): any interleaving of the steps between the places at
  which threads meet; a mutex is held by one thread, and need not be fair. Memory is sequentially
  consistent: all that threads share is behind a mutex, or is a counter with `SeqCst`. A panic
  while a mutex is held poisons it; `Parser::parse` does not panic, and of style data it is proved
  (C116) that no thread panics there.

## Representation choices

* `Arc`, `Box`, `Bow`, `Cow` are erased in most of the model. `Model/Storage` models them
  explicitly, and C54 shows that erasing is right: equality, hashing and lookups do not see
  them.
* A `StyleContext` chain is a list, the head being the context itself, the tail its
  ancestors, each with its `is_open` flag.
* Parsers are functions `List Char → Option (List Char × α)`. The recursive ones take a
  depth budget; C11 proves that any budget above the input length gives the same result.
* Panics are explicit results.
* The manager is a state machine over everything a process or page has; one operation of
  the public API is one step. A reachable state is `run env ops (St.init d)`.
* The inline macro works on lists of token trees; budgets are computed from the number of
  tokens and proved sufficient (C45).

## Where the code and the expected property disagree

Each of these is a theorem with a concrete witness.

* **C14**: keys may be stripped to the empty text, because `str::trim` removes more white
  space than the parser expects (`C14_empty_key`).
* **C16**: some accepted css renders to text that does not parse (`C16_false`,
  `C16_false_value`), so with debug assertions creating such a style panics.
* **C08**: a sheet that mentions the class name itself can render with another structure
  (`C08_limit_mentioned`).
* **C22, C32**: a prefix that is not a CSS identifier breaks finding elements by id, and
  in static markup it can break out of the attribute (`C22_limit_prefix`,
  `C32_limit_prefix`); a detached container leaves elements behind (`C22_limit_detached`).
  What is in the page for such prefixes, for all histories: `C22_rejected_exactly`.
* **C30**: with `append(false)` creating a style fails once the container has a child:
  `insert_before` is called on the first child instead of the container.
* **C31**: unregistering and creating again records a style twice (`C31_twice`).
* **C34**: a hydrated global style has scoped text (`C34_false_global`).
* **C38, C39, C43, C46**: corner cases of the macros (`C38_limit_special`,
  `C39_limit_escape`, `C43_limit_not_equal`, `C43_limit_dollar`,
  `C46_limit_raw_string`).
* **C47**: the `unreachable!` in the inline macro is reachable (`C47_false`).
* **C48**: at-rules without a block are always rejected (`C48_limit_statement_rule`).
* **C50**: unmounting one of several equal `Global`s unregisters the style of the others;
  the next one gets a second element (`C50_false`).
* **C51**: `use_media_query` keeps a stale value after its query changes, or if the media
  change before its effect has run (`C51_false_query`, `C51_false_race`).
* **C55**: commas inside parentheses split selectors (`C55_false`, `C55_false_rendered`).
* **C56**: single-quoted strings are not opaque (`C56_false`).
* **C57**: with counter entropy a client's new style can take the class of a hydrated one
  (`C57_false_counter`).
* **C58**: data of a server that unregistered a style does not load
  (`C58_false_unregister`).
* **C68**: unclosed quotes and brackets are accepted in places, and break the page for
  everything after them (`C68_limit_open`).
* **C70**: `&` and `:root` are replaced in strings, in brackets and in the middle of names too
  (`C70_false`). **C71**: interpolating a list of selectors scopes only the first of them
  (`C71_limit`).
* **C72**: interpolated values with semicolons or braces add declarations, even outside of the
  scope of the style, also with debug assertions (`C72_false`).
* **C73**: a `/` before a `*` in inline css becomes the beginning of a comment
  (`C73_limit_comment`).
* **C74**: blanks of inline css are lost: `@media screen and (max-width: 500px)`, the example of
  the documentation, is printed as `and(max-width:500px)`, which is a function in css, so that
  the condition is not valid and the at-rule is not applied (`C74_false`).
* **C75**: in global styles `&` is replaced in strings too (`C75_false`).
* **C76**: `Error::ReadFailed` is documented as what reading style data returns after the renderer panicked or when the writer was dropped unused. No code returns it: `read_style_data` gives the data recorded until then, or none (`C76_limit_read`).
* **C77**: a `StyleSource` made by `css!` in a styled component carries the manager of that component, which takes part in `==`, but `Style::new`, `GlobalStyle::new`, `use_style` and `Global` silently drop it (`C77_limit_other_uses`).
* **C78**: the documented list of tokens after which there can be a blank lacks `&`: the code puts one between `&` and an identifier, literal, `*` or `#`, so that `& p` is for the `p` inside and not `&p`.
* **C79**: a semicolon in an unquoted url ends the value, so `background: url(data:image/png;base64,iVBO);` is rejected although it is valid css.
* **C82**: an argument of a macro with a string literal is pasted at each of its uses
  (`to_output_with_args.rs`: `arg.clone()`), so it is evaluated once for each use and in
  the order of the uses (`C82_false`, `C82_false_order`), unlike an argument of `format!`.
* **C83**: the emitted block imports `From`, `Into` and `Sheet` with call-site spans
  (`output/sheet.rs` lines 18-20), and the expressions of the user are inside of it: one that
  mentions a `Sheet` of its own gets `stylist::ast::Sheet` (`C83_false`).
`color: red; ` and `a:hover { top: 0; }` are both accepted; one after the other they are one block with the selector `color: red; a:hover`.
With the counter, server and client give the same ids to different styles; dropping one of them removes the element of the other (C92_false_counter).
A user expects the same css to be the same style, as for two strings. Conditions of at-rules are `["@media ", "print"]` when parsed at run time and `["@media print"]` in a macro, so that the keys differ and the style is on the page twice.
A user expects that no css makes `parse` abort the program: it returns a `Result`. The parser has no limit on nesting, so a text of ten characters for each call in progress exhausts any stack (`C95_limit_unbounded`).
A style in a shadow root or a frame is never removed: `unmount` asks the document for the element (`C98_false`, `C98_never_removed`). The documentation of the module names shadow roots and frames as what containers are for. The rules of styles that are gone go on applying there: for a `Global` that is unmounted this is visible (`C98_global_stays`).
Two scoped styles that define an animation of the same name get the frames of the one made last (`C99_false`); `C99_exactly` says when a style gets its own. The documentation of the crate shows `@keyframes` in a scoped style without a warning; a comment in `ast/rule.rs` says that the name is global.
* **C104**: debug builds (with the default feature `debug_parser`) panic for inline css that the macro accepts, such as `a[href$=".pdf"] { top: 0; }` or `top: ;`
* **C105**: in a styled component css! cannot be used after a closure with `move` that uses css! (the hidden variable `__stylist_style_manager__` has moved into the closure, and the user cannot clone it), nor in a function that is written in the body, although the same code compiles with the imported css!
* **C63**: a client that has made a style before the provider with its manager is hydrated
  panics (`C63_false`).
* **C19**: a comment after a string becomes a part of the value, and a comment inside of a
  value is refused (`C19_limit_string_comment`, `C19_limit_inner_comment`).
* **C59**: blanks alone between the braces of an at-rule inside a block, a frame or
  `@keyframes` are refused (`C59_false`, and `C59_exactly` for every such text).
* **C60**: declarations before a block such as `p:hover { … }` are taken for a part of its
  selector (`C60_false`, `C60_false_rendered`, for all such selectors `C60_false_selectors`).

## Per property

| id | status | modelled | how it is proved |
|----|----|----------|------------------|
| C01 | proved | `StyleContext`, `write_style` of all AST nodes | refinement: the writer's output is the layout of an event stream; a stack reader of the stream returns the specified flattening. Invariant on the open flags of the context chain, mutual induction on the tree. `C01_text_reads_back`: also from the characters |
| C02 | proved | same | balanced event stream, and counting characters in the layout |
| C03 | proved | same | the layout function indents by stack depth |
| C04 | proved | same | from the event characterization plus a length argument |
| C05 | proved | `Selector::write_style`, `str::replace`, `contains`, `starts_with` | against an inductive specification of substitution; carried to whole sheets |
| C06 | proved | same | same |
| C07 | proved | `with_block_condition` | from C01's flattening |
| C08 | proved | rendering | the writer is followed for all class names at once on templates; clean templates can be read off their text, so comparisons have the same answer for each name |
| C09 | proved | `Sheet::write_style` | the open flag of the root never changes; induction |
| C10 | proved | `Rule::write_style` | from C01 |
| C11 | proved | whole parser | every recursive call consumes a character; budget irrelevance by induction |
| C12 | proved | `parse`, nom `many0` | `many0` only stops at the end; every character is accounted for by an independent grammar (`Spec/Grammar`) |
| C13 | proved | `sp`, `cmt`, `trimmed`, `sheet` | `sp` eats any prefix of blanks and comments |
| C14 | proved | whole parser | post-condition by induction on the budget |
| C15 | proved | parser and renderer | completeness lemmas of each sub-parser on printed text |
| C16 | partial | same | false: witnesses; `C16_partial` from C15; the exact border by showing that rendered text is css in a wide layout (C59) whose flag is set by animations without frames |
| C17 | proved | `from_str` with the cache, sequential and with threads | invariant of the cache over histories and interleavings |
| C18 | proved | parser | completeness lemmas |
| C19 | proved | parser | completeness lemmas |
| C20 | proved | manager state machine | the registry entry is stable until unregistered; induction over all histories of operations |
| C21 | proved | manager state machine | ids are injective in the counter; invariant; induction over all histories of operations |
| C22 | proved | manager state machine | invariant relating page, heap and references; induction over all histories of operations |
| C23 | proved | manager state machine | reference counts; induction over all histories of operations |
| C24 | proved | manager state machine | frame lemma for every operation; induction over all histories of operations |
| C25 | proved | manager state machine | frame lemma; induction over all histories of operations |
| C26 | proved | manager state machine | the failing path is the identity up to the counter; induction over all histories of operations |
| C27 | proved | manager state machine | invariant: no borrow is left, keys are unique; induction over all histories of operations |
| C28 | proved | manager state machine | releasing a registry; induction over all histories of operations |
| C29 | proved | manager state machine | positions in the container; induction over all histories of operations |
| C30 | partial | `mount` on an ordered container | false: witnesses; partial for empty containers |
| C31 | proved | static writers | invariant on the log; `C31_once` under no unregistering |
| C32 | proved | `write_static_markup` | an independent HTML reader gives back the entries |
| C33 | proved | `load_style_data` | server history, serialization, client history; invariants |
| C34 | partial | same | scoped: proved; global: false, witness |
| C35 | proved | same | exact condition for the panic, effect otherwise; induction on the data |
| C36 | proved | derived serde traits, deserialization of `StyleData` | round trip by induction on the tree |
| C37 | proved | manager | invariant on the heap |
| C38 | proved | `fstring.rs` | soundness, completeness and uniqueness of splitting |
| C39 | proved | `to_output_with_args.rs`, `output/*.rs` and their evaluation | induction on the tree |
| C40 | proved | `literal/mod.rs` | exact characterization of acceptance |
| C41 | proved | `str_frag.rs` coalescing | induction on the fragments |
| C42 | proved | `context.rs`, `maybe_static.rs` | exact characterization of the context of a tree; evaluation is the same with caches |
| C43 | proved | literal macro and parser | composition of C39 and C38 on texts without specials |
| C44 | proved | `SpacedIterator` with `FnMut` and peeking | refinement to a list function |
| C45 | proved | component values | round trip, uniqueness, budgets |
| C46 | proved | inline macro | refinement to a grammar of token trees (`Spec/Inline`) |
| C47 | partial | same | exact condition for the panic; false in general: witness |
| C48 | proved | same | acceptance iff the grammar, plus error collection |
| C49 | proved | `Global` life cycles on top of the manager | invariant over all histories of events, then C22 |
| C50 | partial | same | false: witness; partial while the style was never unregistered |
| C51 | partial | `use_media_query` as a transition system | false: two witnesses; two partial theorems |
| C52 | proved | `use_prepared_media_query` as a transition system | invariant over all schedules |
| C53 | proved | `use_style` as repeated creation | uniqueness invariant over all histories |
| C54 | proved | `Bow`, `Cow`, derived `PartialEq`, `Hash` | induction on the tree |
| C55 | partial | parser | false: witnesses; partial for selectors without such commas |
| C56 | partial | parser | false: witness; partial for strings without special characters |
| C57 | partial | manager, hydration | false for the counter: witness; true when entropies are distinct |
| C58 | partial | server, serialization, client | false after unregistering: witness; true otherwise |
| C59 | partial | parser | false: witness; otherwise soundness for a grammar of texts by induction on it |
| C60 | partial | parser | false: witness; partial from C59 |
| C61 | proved | providers and contexts on top of the manager (`Model/Context`) | invariant over all events: the handles of a provider are its own and stand for the manager last given to it |
| C62 | proved | `Model/Context`, server and transport as in C33 | C33 with the history of the client's events as operations |
| C63 | partial | `Model/Context` | false: witness; exact condition from C35; partial from C58 |
| C64 | proved | `Model/Context` | invariant: the handle of the default manager is never dropped; C20 |
| C65 | proved | `Model/Context` | C23 with the operations of the events |
| C66 | proved | manager | every id was made from a number below the counter |
| C67 | proved | `Model/Threads` | invariant: the state is that of a sequential history with reordered entropy; then C21, C24, C27 |
| C68 | proved | rendering | a reader with a state per character; each printed piece leaves it where it was and adds its declarations; induction on the sheet |
| C69 | proved | parser, rendering, manager, page, markup, components | composition of C59, C22, C32, C65 and C68 |
| C70 | partial | printing of selectors | a reader and a semantics of selectors (`Spec/Select`); false: witness; partial by a simulation between reading the source and the printed text; for selectors in brackets (`Spec/SelectDeep`) by induction on the depth |
| C71 | proved | rendering | from C70: reached elements stay below; induction on the sheet |
| C72 | partial | macros, rendering, manager | false: witnesses; partial: the evaluated template is whole, by a simulation of the reader over pieces, then C39 and C68 |
| C73 | proved | inline macro, code it expands to, rendering, a reader of css | the texts of spaced fragments by induction over component values; the reader goes over them (simulation); induction over the items; then C46, C42 and C68 |
| C74 | partial | inline macro, parser of css, rendering | false: witnesses; partial: a relation between strings and items gives a layout of the emitted sheet; then C59, C46 and C42; exact border: sheets with the same arrangement and the same declarations go through alike chains of contexts (`C09_determined`), and the browser reads the declarations back |
| C75 | partial | printing of selectors | as C70, `&` being renamed to `:root`, in brackets too; false: witness |
| C76 | proved | the error enum, the operations that return results, faults of the browser as inputs | cases on the lookup in the registry (getOrRegister_eq), the invariant that in a browser every manager has a container, and a characterisation of when mounting fails |
| C77 | proved | style sources as values with the manager handle they keep, their clones, drops, comparison and uses, on top of the model of providers | invariant by induction over histories: every source has its css and a live handle of the manager known from the history, handles of sources are separate from those of providers; then as C61 |
| C78 | partial | The inline pipeline (Model/Inline, Spacing, Output). Spec/Documented lists the tokens of the written css and joins them by the documented rule. | The declarations of the evaluated sheet are the written ones (C73_declarations, which holds whatever the texts are); by induction on the component values both joinings agree when no `&` is before a word. |
| C79 | partial | `Parser::parse` (Model/Parser). | Such a value is a value text (induction on its length), and declarations with value texts are read as written (C19). |
| C80 | proved | the parser (Model/Parser), Spec/Layout for the css in front and Spec/Rejected for the place that is broken | by induction over the broken text every item of the parser fails there (broken_stop); what is in front is read exactly up to that place (layout_read), so the parser is stuck before the end and the outermost many0 is an error (parse_stuck) |
| C81 | proved | the emitted code as a computation over an arbitrary state that may not give a value (Model/Evaluation) | each emitted piece of code is shown to run exactly the expressions of its output item in order (Gives, by induction over the emitted code), and the output items to hold exactly the expressions of the tokens (emits_exprs) |
| C82 | partial | the literal macro (Model/Literal) and the emitted code as a computation (Model/Evaluation) | as for C81 with the names used by the texts of the sheet in place of the tokens (Uses, sheetOut_exprs); the partial result for names used once by a permutation argument |
| C83 | partial | the names that the emitted block brings into scope at each expression (Model/Evaluation, sheetNames) | from C81/C82: the only names in scope at the expressions are those of the block of the sheet; expressions are lexical (hypothesis Lexical) |
| C84 | proved | the parser with a counter (`Model/Steps`): one step for each call of a combinator and each round of a loop, one for each character compared, skipped or copied | bounds for all parsers without recursion (linear, then quadratic); of the alternatives at one place at most one gets beyond its header (`one_header`), so by induction on the depth a block costs a constant number of such units for each character it reads; after one scope the next one reads nothing |
| C85 | proved | `Model/Report`: the loop of the outer `many0` with the place of its error, the list of places of the error, `convert_error` | The report agrees with the parser; the place is a suffix at which the item parser fails (induction over the rounds), what was consumed follows the grammar (C12), a laid out block or at-rule would have been read there (C59), and the text of an entry is computed from the lines in front of the place. |
| C86 | proved | macros, evaluation, rendering, manager, page, markup, components | composition of C46, C73, C72 with C22, C32, C65 |
| C87 | partial | whole parser | layouts are closed under appending; with C59 |
| C88 | proved | The errors of validation with the component value they point to; a grammar Written that splits tokens without looking at what is allowed where, and the list of mistakes of what is split. | The parser accepts exactly what Written splits, by induction on the budget and on the derivation; the errors collected by the output functions are the mistakes, by induction on the items. |
| C89 | proved | Everything of C22, C29 and C68: the registry, handles, the page and the reader of css. | The invariants of C22 (one element per living style, none otherwise) and of C29 (any two elements are in order of creation) determine the whole list: a list with exactly one node per style in which every two nodes are in order is the list of the elements. The reader of C68 is applied to every element. |
| C90 | proved | `Model/LiteralErrors`: literal/mod.rs and to_output_with_args.rs with their errors; HashMap order is a parameter. | Induction over the argument loop for the errors of arguments; for the texts a relation that carries the result and the first wrong text through the tree of the sheet; case distinction for the whole macro. |
| C91 | proved | `Spec/Cascade`: specificity, strength of a declaration, the winner of a list of declarations, and what a sheet says; printed text and page as in C68 and C89. | Weights are carried through the replacement of & and :root along the splitting of selectors; the declarations a browser reads are the image of those the sheet says, with the same strength, so the winners correspond; order of creation by a pairwise invariant of the page. |
| C92 | partial | the whole model of the manager, run twice (server and client), the markup, and the page; `Spec/Hydrated` says which elements remain | The style elements of a container are always a sublist of the original ones followed by the mounted ones (an invariant of every step); which ones are there is known from the invariant of C22, and a sublist of a list without duplicates is determined by its members. For a server with threads, C67 gives a history of one thread with the same results, in which the random strings are used in another order. |
| C93 | proved | `Model/Yew` and `Model/Manager`, with the page | While the style is not unregistered, it is registered and the only living one with its key (invariants over the operations of the events); who has a handle to it is known from an invariant on the components, which from the first `unregister` on also says that a registered style belongs to a component. What is alive is on the page by the invariant of C22. |
| C94 | partial | `Model/Literal`, `Model/Output`, `Model/Parser` and `Model/Manager` | The code of the macro evaluates to the coalesced fragments (induction over the output tree); without interpolation these are all texts in one piece. The shape of parsed sheets (C14) says which lists have one piece. Classes by C20 and C21. |
| C95 | proved | `Model/Depth`: the parser once more with room for a number of calls of `scope_contents` and `rule_block` in progress; one more call aborts, and no combinator catches it. `Spec/Depth`: the nesting of a sheet | Every combinator of limited parsers gives the result of the plain one or aborts. Where it aborts is followed through the combinators, by induction over the room; each call is behind a brace. An item that aborts but is not part of the sheet leaves the parser at a place where nothing can be read, so that the text is rejected. |
| C96 | proved | `Spec/Readable`: the three grammars. Selectors and conditions are greedy about the blanks after strings and placeholders, values are not | One direction follows the loop over pieces to the end of the text, the other reads off a grammar from the pieces. A trimmed text that ends in front of a brace or semicolon is the whole text in front of it. |
| C97 | proved | `Model/Classes`: the conversions into Yew's `Classes`, locations, and the attribute that Yew writes. `Spec/Classes`: the classes that html reads in an attribute, and documents that know the attributes | The words of an attribute are those of its items; a handle reads the id of its content, which never changes, and ids are distinct. A location has a colon, which no identifier has. |
| C98 | partial | `Model/Dom`, `Model/Manager`, `Model/Yew`: containers that are in the document and others. `Spec/Shadow`: the styles that a history makes for a container | Induction over the history: the effect of every operation on the styles and elements (`Proofs/Effects`), and removal of a node of the document does not touch other containers. |
| C99 | partial | `Model/Render`, `Model/Manager`. `Spec/Animation`: what a browser takes for the animations of a text and of a page, the animations of a sheet, and which one is used for a name | Induction over the sheet for the events of its text (`Proofs/Animation`), then the elements of a page (`C89_application`) and the last element of a list that is a concatenation. |
| C100 | proved | `Model/Yew`, `Model/Manager`. `Spec/GlobalPage`: the mounted components in order, from the events alone | Invariant over the events: the styles of the mounted components were made in the order of the list, and nobody else keeps a style (`Proofs/GlobalPage`). Then the elements of a page (`C89_application`). |
| C101 | proved | `Model/Manager`. `Spec/FirstUses`: the first requests, from the operations alone, and the class and text of the n-th | Invariant over the operations: the styles made so far are those of the list of first requests, in order, and those of managers in use are registered (`Proofs/FirstUses`). Then `C89_application` and `C31_read`. |
| C102 | proved | `Model/Storage`, deserialization with fields by name and by position. `Spec/Data`: what a value says | For each type: what is read is what the value says, by the cases of the reader; what the value says is read, by induction on the tree with the nesting of the value as measure (`Proofs/Storage`). |
| C103 | proved | `Model/Parser`, all of it. `Spec/Accepted`: the grammar, with the rest of the text at hand; values, selectors and conditions of `Spec/Readable`, as long as they can be | For each parser: what it reads is what the grammar says, and the other way round, by induction on the length of the text and on the derivation (`Proofs/Accepted`, `Proofs/Accepts`, `Proofs/AcceptedBody`). |
| C104 | partial | `Model/Inline`, `Model/Output`, `Model/Render`, `Model/Parser`, `Model/Manager`. `Spec/Checked`: the texts of the items | The rendered text of the items is a sequence of groups of clean frames, conditions and declarations; each is read by the parser (`Proofs/Groups`, `Proofs/Printed`, `Proofs/Reparse`, `Proofs/Checked`). |
| C105 | partial | `Model/Styled`: the expansion of the attributes, resolution of names with marks, textual scope of macros, moves of the hidden variable. `Spec/Styled`: which manager counts at a place, and which code takes it away, without marks and hidden variables | Induction on the code with the scope and the moves generalized; the place of a scope is what css! means in it (`Proofs/Styled`). |
| C106 | proved | `Spec/Size`: the size of a sheet and the family of ladders | The stream of C01 opens a header only on the way to a declaration or @keyframes, so at most as many as the paths are long; every line is bounded by depth and header length (`Proofs/Size`). The lower bound by induction on the ladder with the chain of contexts (`Proofs/Ladder`). The css bound by induction on the grammar of C12. |
| C107 | proved | `Model/Failures`: the functions of C23 and C51 again, with the texts of errors and panics; the report is that of C85 | The functions are shown to forget to those of the manager model, then case analysis on the reasons; the reachable states give the containers and the free locks. |
| C108 | proved | the manager model (C20-C31) with `debug_parser`, and the exact border of C16 | All created contents of reachable states have passed the check (invariant over the history), so that a registered key of a refused sheet is impossible; then C16_exactly. |
| C109 | proved | rendering once more with room for n calls of write_style and open_parent in progress (`Model/RenderStack`) | The exact room of each function as a number, computed from the chain of contexts; bounded from both sides by the levels; css through C14 and C95. |
| C110 | proved | rendering once more with a counter of steps: one for each call, character written or compared, condition copied (`Model/RenderSteps`) | Bounds for the length of the chain, of its conditions and of the texts as invariants of rendering, then the work of each function in turn, and the sum over the parts of the sheet. |
| C111 | proved | the strong and weak counts of each Rc, Weak and Arc, with the clones in local variables; whether something goes is decided by the counts only (`Model/Counts`) | The counts are the references owned by values plus those in local variables, through every function; then refinement of `Model/Manager`. |
| C112 | proved | `Model/Manager` and `Model/Cache`; the requests of a history (`Spec/Growth`) | Every entry of a registry is for a request (induction over histories), keys are distinct, then counting; the page by C89; for the cache: who misses holds the lock until it has inserted. |
| C113 | proved | writers and readers of each type in the order of its fields and variants, on bytes, with UTF-8 (`Model/Compact`) | Laws for each combinator (reads what is written; reads nothing else), induction over the nesting. |
| C114 | proved | `Sheet::from_str` in atomic steps, with the lock, in any number of threads (`Model/Cache`) | The invariants that the owner of the lock is past `lock()` and that nobody else is; a measure that falls with every step that is not waiting; a permutation between the arguments of calls begun and answered. |
| C115 | proved | `write_static_markup` call by call of `write_str`, over any writer with any state (`Model/Writer`) | Reduction to a list of pieces, induction over it; for the reader, induction over the styles and the place of the cut. |
| C116 | proved | the places at which threads meet, together: `from_str` (`Model/Cache`), the counter, and lock, push and unlock of style data (`Model/Locks`) | Refinement to `Model/Threads` by an invariant over steps; then C67. A rank of the steps that are left for the end of calls. |
| C117 | proved | the threads of C116; what a thread got is read off from its finished calls (`Spec/Requests`) | Invariant over the steps of all threads: what is read off from the calls of the thread of a manager agrees with the manager; then C67 for the numbers and C115 for the browser. |
| C118 | proved | `get_rand_str` for a given sequence of random numbers (`Model/Random`); the histories of the manager model, the threads of C67 and the two processes of C57 with it | Strings and blocks of eight numbers correspond one to one. Induction on the number of calls for the exact count; from it the bound. Classes coincide only if strings do (C21, C67, C57). |
| C119 | proved | The threads with locks and cache of C116, the markup of C115, the compact format of C113, and the client of C33 | What was made stays (an invariant of the steps of all threads); the read is the last call of an equivalent history of one thread (C67, C116), where the data are the created styles (C31); they are distinct by C117, so loading does not panic (C35). |
| C120 | proved | The threads with locks and cache of C116, the markup of C32, and the browser of C68 and C91 | C117 says what the data are, C119 that the classes are those that the thread got, C68 how the text of each style is read, C91 how it is weighed; classes differ because their last parts do. |
| C121 | proved | The builder as a record that the calls change one after the other, then the step newMgr of the states of C20 | Folding the calls gives the last of each kind, by induction; what a manager is made of never changes (an invariant of all steps), so C66, C29 and C31 apply to what was told. A value refers to one manager while it is there, and a new manager is behind all others. |

## Axioms

Output of `#print axioms` for every theorem in `MANIFEST.json`.

* no axioms: `C51_false_query`, `C51_false_race`, `C51_first`, `C52_first`.
* `propext`: `C06_global_dangling`, `C08_not_mentioned`, `C08_limit_mentioned`, `C14_empty_key`, `C16_false`, `C16_false_value`, `C19_limit_string_comment`, `C19_limit_inner_comment`, `C30_false_second`, `C31_twice`, `C32_limit_prefix`, `C34_false_global`, `C38_limit_special`, `C41_text`, `C48_block_in_block`, `C50_false`, `C52_until_effect`, `C54_equal`, `C55_false`, `C55_false_rendered`, `C56_false`, `C57_false_counter`, `C58_false_unregister`, `C59_false`, `C59_limit_semicolons`, `C59_limit_space`, `C60_false`, `C60_false_rendered`, `C63_false`, `C65_limit_unmount`, `C68_limit_open`, `C70_false`, `C75_false`, `C76_build`, `C76_limit_read`, `C77_limit_other_uses`, `C77_limit_last`, `C79_false`, `C80_limit_brackets`, `C85_limit_inside`, `C85_limit_selector`, `C89_limit_again`, `C89_limit_containers`, `C90_limit_missing`, `C90_limit_generic`, `C90_limit_first`, `C92_limit_order`, `C93_limit_unused`, `C100_limit_equal`, `C101_limit_fail`, `C105_variables`, `C105_false`, `C107_limit_default`, `C108_limit_loaded`, `C115_string`, `C119_limit_unregister`.
* `propext`, `Quot.sound`: `C01_limit_colon`, `C09_limit_arrangement`, `C11_terminates`, `C12_no_text_ignored`, `C13_leading_blanks`, `C17_cache_transparent`, `C17_cache_transparent_threads`, `C36_roundtrip`, `C36_format`, `C36_load_same`, `C39_limit_escape`, `C40_first_token`, `C41_emitted_text`, `C42_evaluates`, `C42_joined_text`, `C43_limit_not_equal`, `C43_limit_dollar`, `C44_spaced`, `C46_limit_raw_string`, `C47_false`, `C52_reaches_settled`, `C54_hash`, `C68_limit_backslash`, `C71_limit`, `C72_false`, `C73_limit_comment`, `C74_false`, `C81_agrees`, `C82_false`, `C82_false_order`, `C83_false`, `C84_result`, `C85_result`, `C85_alone`, `C87_false`, `C88_limit_nested`, `C88_limit_hidden`, `C94_false`, `C94_limit_empty`, `C94_limit_interpolated`, `C95_result`, `C95_enough`, `C97_limit_space`, `C99_reader`, `C101_limit_unregister`, `C102_reads_iff`, `C102_rejects_iff`, `C102_unambiguous`, `C104_false`, `C105_managers`, `C105_attributes`, `C107_prop`, `C109_result`, `C109_enough`, `C109_needed`, `C109_limit_twice`, `C110_result`, `C114_no_deadlock`, `C114_answered_once`, `C114_all_end`, `C114_throughput`, `C114_limit_unfair`, `C115_stops_at_error`, `C115_kept`, `C115_buffer`, `C117_limit_unregister`, `C118_strings`, `C121_order`, `C121_builds`.
* `propext`, `Classical.choice`, `Quot.sound`: `C01_declarations_under_their_conditions`, `C01_text_reads_back`, `C02_well_bracketed_stream`, `C02_braces_balance`, `C03_indentation`, `C04_empty_iff`, `C04_keyframes_printed`, `C04_no_empty_blocks`, `C05_scoped_selectors`, `C05_selector_mentions_class`, `C05_in_the_text`, `C06_global_selectors`, `C06_in_the_text`, `C07_dangling_declarations`, `C08_template`, `C09_determined`, `C09_compositional`, `C10_at_rules_verbatim`, `C10_keyframes_names`, `C12_every_character`, `C14_shape`, `C15_roundtrip`, `C15_fixpoint`, `C16_written_partial`, `C16_exactly`, `C16_exactly_written`, `C16_partial`, `C18_strings_opaque`, `C19_declarations`, `C20_same_class`, `C21_distinct_classes`, `C21_class_determines_style`, `C21_calls`, `C21_counter_bound`, `C21_random`, `C21_limit`, `C22_element_iff_alive`, `C22_no_orphans`, `C22_adopted_elements`, `C22_application`, `C22_limit_prefix`, `C22_limit_dash`, `C22_identifiers`, `C22_limit_detached`, `C22_rejected_exactly`, `C22_rejected_stays`, `C22_prefix_stays`, `C23_unregister`, `C23_registered_stays`, `C24_handles_stable`, `C25_isolated`, `C25_page`, `C26_no_trace`, `C26_retry`, `C27_no_panic`, `C27_release`, `C28_drop_manager`, `C29_appends`, `C29_creation_order`, `C30_false`, `C30_prepend_partial`, `C30_succeeds_iff`, `C31_records`, `C31_read`, `C31_once`, `C32_markup_reads_back`, `C32_one_end_tag_each`, `C32_server_page`, `C33_loaded_class`, `C33_hydration`, `C34_exactly`, `C34_scoped_partial`, `C34_global_partial`, `C35_panics_iff_conflict`, `C35_effect`, `C37_scoped_text`, `C37_global_text`, `C38_split`, `C38_succeeds`, `C38_unique`, `C39_substitutes`, `C39_same_text`, `C40_accepts_iff`, `C40_arguments_unique`, `C40_limit_raw_name`, `C41_no_adjacent`, `C42_cached_iff`, `C42_stored`, `C43_same_as_run_time`, `C45_lossless`, `C45_one`, `C45_unique`, `C45_terminates`, `C46_code`, `C46_macro`, `C46_evaluated`, `C46_unique`, `C46_order`, `C46_output_unique`, `C47_partial`, `C47_panics_iff`, `C47_panics_exactly`, `C48_only_valid`, `C48_limit_statement_rule`, `C49_global`, `C49_alive_only_mounted`, `C50_shared_partial`, `C50_exactly`, `C51_constant_partial`, `C51_after_change_partial`, `C51_exactly`, `C52_settled`, `C53_same_class`, `C53_one_style`, `C54_lookup`, `C55_exactly_plain`, `C55_partial`, `C56_partial`, `C56_exactly`, `C56_exactly_plain`, `C57_random_partial`, `C57_counter_exactly`, `C58_loads_partial`, `C58_panics_iff_partial`, `C59_layout_partial`, `C59_same_style_partial`, `C59_exactly`, `C59_exactly_layouts`, `C59_exactly_same`, `C60_exactly`, `C60_false_selectors`, `C60_declarations_partial`, `C61_use_style`, `C61_classes`, `C62_children`, `C62_other_manager`, `C62_server_to_client`, `C62_rerender_same`, `C63_panics_iff`, `C63_fresh_partial`, `C64_default_stays`, `C64_first_use`, `C64_same_class`, `C65_stays_styled`, `C66_class_name`, `C66_exactly`, `C67_sequential`, `C67_program_order`, `C67_distinct_classes`, `C67_style_data`, `C67_no_panic`, `C67_own_managers`, `C68_browser_reads`, `C68_exactly`, `C69_css_on_page`, `C69_server`, `C69_component`, `C70_meaning_partial`, `C70_applies_partial`, `C70_in_the_text_partial`, `C70_depth`, `C70_brackets_partial`, `C70_brackets_in_the_text_partial`, `C71_stays_inside`, `C71_in_the_text`, `C71_on_page`, `C71_limit_not`, `C72_exactly`, `C72_values_stay_partial`, `C72_debug_check`, `C73_declarations`, `C73_inline_reads`, `C74_exactly`, `C74_same_partial`, `C75_brackets_partial`, `C75_brackets_in_the_text_partial`, `C75_meaning_partial`, `C75_in_the_text_partial`, `C76_parse`, `C76_web`, `C76_others`, `C77_classes`, `C77_plain`, `C77_equal`, `C77_use_style`, `C78_documented_partial`, `C78_exactly`, `C78_false`, `C79_partial`, `C79_exactly`, `C79_exactly_plain`, `C80_rejected`, `C80_error`, `C80_at_rules`, `C80_limit_space`, `C81_in_order`, `C81_again`, `C81_trace`, `C82_per_use_partial`, `C82_once_partial`, `C82_exactly`, `C82_uses_unique`, `C83_inline_partial`, `C83_literal_partial`, `C83_inline_exactly`, `C83_literal_exactly`, `C84_polynomial`, `C85_message`, `C85_broken`, `C86_inline_on_page`, `C86_literal_on_page`, `C86_inline_server`, `C86_literal_server`, `C86_inline_component`, `C86_literal_component`, `C87_one_after_the_other_partial`, `C87_after_block`, `C87_exactly`, `C87_exactly_lost`, `C88_all_mistakes`, `C88_outcome`, `C88_no_mistakes`, `C89_components`, `C89_elements`, `C89_application`, `C90_error_iff`, `C90_code_iff`, `C90_unused`, `C91_components`, `C91_weight`, `C91_in_a_style`, `C91_one_winner`, `C91_on_the_page`, `C91_later_wins`, `C91_later_class_wins`, `C91_limit_again`, `C92_elements`, `C92_application_partial`, `C92_false_counter`, `C92_threads_partial`, `C93_hydrated_global`, `C94_pieces`, `C94_same_sheet_iff`, `C94_same_class_partial`, `C95_exact`, `C95_limit_unbounded`, `C96_value`, `C96_value_lost`, `C96_selector`, `C96_selector_lost`, `C96_condition`, `C96_animation`, `C97_given`, `C97_debug_and_release`, `C97_on_page`, `C98_false`, `C98_alive_partial`, `C98_exactly`, `C98_never_removed`, `C98_reads`, `C98_global_stays`, `C99_animations`, `C99_parsed`, `C99_no_class`, `C99_page`, `C99_exactly`, `C99_distinct_partial`, `C99_false`, `C99_components`, `C100_page`, `C101_page`, `C101_class`, `C101_server`, `C103_accepted`, `C103_rejected`, `C103_one_reading`, `C104_parses_partial`, `C104_creates_partial`, `C104_tokens_partial`, `C105_hidden`, `C105_hygiene`, `C105_exactly`, `C105_partial`, `C106_length`, `C106_css`, `C106_cubic`, `C107_create`, `C107_error`, `C107_use_style`, `C107_css`, `C107_global`, `C107_use_style_ok`, `C107_after`, `C107_default`, `C108_panics`, `C108_written`, `C108_else_same`, `C109_parsed`, `C110_polynomial`, `C110_css`, `C111_counting`, `C111_exact`, `C111_freed`, `C111_no_leak`, `C111_mounted`, `C112_registered`, `C112_living`, `C112_page`, `C112_limit_kept`, `C112_limit_unbounded`, `C112_cache`, `C112_limit_cache`, `C113_reads_iff`, `C113_roundtrip`, `C113_load_same`, `C113_truncated`, `C113_written_iff`, `C113_limit_changed`, `C114_owner_returns`, `C115_cut_page`, `C115_whole_page`, `C116_sequential`, `C116_program_order`, `C116_style_data`, `C116_no_poison`, `C116_one_lock`, `C116_no_deadlock`, `C116_all_end`, `C117_page`, `C117_apart`, `C117_browser`, `C118_classes`, `C118_all`, `C118_exactly`, `C118_rare`, `C118_too_many`, `C118_fresh`, `C118_history`, `C118_threads`, `C118_hydration`, `C119_sent`, `C119_page`, `C119_hydration`, `C120_request`, `C121_told`, `C121_class`, `C121_place`, `C121_equal`, `C121_threads`.
