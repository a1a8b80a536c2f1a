{
 "claims": [
  {
   "property": "C01",
   "status": "proved",
   "theorems": [
    "C01_declarations_under_their_conditions",
    "C01_text_reads_back",
    "C01_limit_colon"
   ],
   "note": "Stream form for all sheets and all strings; character form for texts without structural characters. Class names containing ':' are excluded, since the printed selector is then not the one-pass substitution."
  },
  {
   "property": "C02",
   "status": "proved",
   "theorems": [
    "C02_well_bracketed_stream",
    "C02_braces_balance"
   ],
   "note": "Stream form without any hypothesis, character form for brace-free strings."
  },
  {
   "property": "C03",
   "status": "proved",
   "theorems": [
    "C03_indentation"
   ],
   "note": ""
  },
  {
   "property": "C04",
   "status": "proved",
   "theorems": [
    "C04_empty_iff",
    "C04_keyframes_printed",
    "C04_no_empty_blocks"
   ],
   "note": ""
  },
  {
   "property": "C05",
   "status": "proved",
   "theorems": [
    "C05_scoped_selectors",
    "C05_selector_mentions_class",
    "C05_in_the_text"
   ],
   "note": "Class names containing ':' excluded."
  },
  {
   "property": "C06",
   "status": "proved",
   "theorems": [
    "C06_global_selectors",
    "C06_global_dangling",
    "C06_in_the_text"
   ],
   "note": ""
  },
  {
   "property": "C07",
   "status": "proved",
   "theorems": [
    "C07_dangling_declarations"
   ],
   "note": ""
  },
  {
   "property": "C08",
   "status": "proved",
   "theorems": [
    "Template.C08_template",
    "Template.C08_not_mentioned",
    "Template.C08_limit_mentioned"
   ],
   "note": "One template for all class names. C08_limit_mentioned shows that a name the sheet itself mentions must be excluded."
  },
  {
   "property": "C09",
   "status": "proved",
   "theorems": [
    "C09_determined",
    "C09_limit_arrangement",
    "C09_compositional"
   ],
   "note": "C09_determined: the text is determined by the arrangement, the declarations with their conditions, and the places of the animations."
  },
  {
   "property": "C10",
   "status": "proved",
   "theorems": [
    "C10_at_rules_verbatim",
    "C10_keyframes_names"
   ],
   "note": ""
  },
  {
   "property": "C11",
   "status": "proved",
   "theorems": [
    "C11_terminates"
   ],
   "note": "The recursion budget of the model is shown irrelevant above the input length; the loops of the combinators consume input by definition."
  },
  {
   "property": "C12",
   "status": "proved",
   "theorems": [
    "C12_no_text_ignored",
    "C12_every_character"
   ],
   "note": "C12_every_character states that a text that parses is a text of an independent grammar (Spec/Grammar.lean) spelling exactly the returned sheet, so each character is a blank, part of a comment, punctuation or part of the sheet; C12_no_text_ignored says that the parser of the sheet leaves no rest."
  },
  {
   "property": "C13",
   "status": "proved",
   "theorems": [
    "C13_leading_blanks"
   ],
   "note": "Both success and failure are preserved."
  },
  {
   "property": "C14",
   "status": "proved",
   "theorems": [
    "C14_shape",
    "C14_empty_key"
   ],
   "note": "Keys can be empty when the identifier consists of non-ASCII white space (C14_empty_key)."
  },
  {
   "property": "C15",
   "status": "proved",
   "theorems": [
    "C15_roundtrip",
    "C15_fixpoint"
   ],
   "note": "For every clean sheet, class name and global styles. C15_fixpoint: the text is a fixpoint of parsing and rendering."
  },
  {
   "property": "C16",
   "status": "partial",
   "theorems": [
    "C16_false",
    "C16_false_value",
    "C16_written_partial",
    "C16_exactly",
    "C16_exactly_written",
    "C16_partial"
   ],
   "note": "False in general (C16_false, C16_false_value). For css written in any layout with plain frames the border is exact (C16_exactly_written): the text is not accepted again if and only if some animation, at any depth, declares nothing; otherwise it reads back with the same declarations and the same text. C16_exactly says the same of sheets. Missing: frames with at-rules inside or comments between steps, and selectors of white space only."
  },
  {
   "property": "C17",
   "status": "proved",
   "theorems": [
    "C17_cache_transparent",
    "C17_cache_transparent_threads"
   ],
   "note": "Sequential histories, and all schedules of any number of threads at the granularity of the lock."
  },
  {
   "property": "C18",
   "status": "proved",
   "theorems": [
    "C18_strings_opaque"
   ],
   "note": ""
  },
  {
   "property": "C19",
   "status": "proved",
   "theorems": [
    "C19_declarations",
    "C19_limit_string_comment",
    "C19_limit_inner_comment"
   ],
   "note": "Values are plain texts, strings and slashes; white space may follow a value, comments may precede it and surround the key. C19_limit_string_comment and C19_limit_inner_comment show where comments are not blanks."
  },
  {
   "property": "C20",
   "status": "proved",
   "theorems": [
    "Manager.C20_same_class"
   ],
   "note": "For every history in between that does not unregister the style."
  },
  {
   "property": "C21",
   "status": "proved",
   "theorems": [
    "Manager.C21_distinct_classes",
    "Manager.C21_class_determines_style",
    "Manager.C21_calls",
    "Manager.C21_counter_bound",
    "Manager.C21_random",
    "Manager.C21_limit"
   ],
   "note": "Counter entropy below 2^64 calls, or random strings that are different (FreshIds; how often this is so: C118); loaded styles bring ids of another process and are not counted. C21_random: it is enough that the strings have no dash. C21_limit: the bound is exact, since one style more than 2^64 can give two living styles of one manager the same class."
  },
  {
   "property": "C22",
   "status": "proved",
   "theorems": [
    "Manager.C22_element_iff_alive",
    "Manager.C22_no_orphans",
    "Manager.C22_adopted_elements",
    "Manager.C22_application",
    "Manager.C22_limit_prefix",
    "Manager.C22_limit_dash",
    "Manager.C22_identifiers",
    "Manager.C22_limit_detached",
    "Manager.C22_rejected_exactly",
    "Manager.C22_rejected_stays",
    "Manager.C22_prefix_stays"
   ],
   "note": "For ids that are CSS identifiers and pairwise distinct (C21), containers in the document, and no foreign element with the same id. C22_limit_prefix and C22_limit_detached show that the hypotheses are needed: otherwise the element stays forever. C22_rejected_exactly and C22_rejected_stays say for all histories what is in the page for ids that are not CSS identifiers, when the browser rejects the selector."
  },
  {
   "property": "C23",
   "status": "proved",
   "theorems": [
    "Manager.C23_unregister",
    "Manager.C23_registered_stays"
   ],
   "note": ""
  },
  {
   "property": "C24",
   "status": "proved",
   "theorems": [
    "Manager.C24_handles_stable"
   ],
   "note": ""
  },
  {
   "property": "C25",
   "status": "proved",
   "theorems": [
    "Manager.C25_isolated",
    "Manager.C25_page"
   ],
   "note": ""
  },
  {
   "property": "C26",
   "status": "proved",
   "theorems": [
    "Manager.C26_no_trace",
    "Manager.C26_retry"
   ],
   "note": "The page is unchanged if the id tried is a CSS identifier not on the page. The retry succeeds for managers that append; for append(false) see C30."
  },
  {
   "property": "C27",
   "status": "proved",
   "theorems": [
    "Manager.C27_no_panic",
    "Manager.C27_release"
   ],
   "note": "Panics are possible only in load_style_data (C35) and with debug_parser on text that does not parse (C16)."
  },
  {
   "property": "C28",
   "status": "proved",
   "theorems": [
    "Manager.C28_drop_manager"
   ],
   "note": ""
  },
  {
   "property": "C29",
   "status": "proved",
   "theorems": [
    "Manager.C29_appends",
    "Manager.C29_creation_order"
   ],
   "note": ""
  },
  {
   "property": "C30",
   "status": "partial",
   "theorems": [
    "Manager.C30_false",
    "Manager.C30_false_second",
    "Manager.C30_prepend_partial",
    "Manager.C30_succeeds_iff"
   ],
   "note": "False as stated: with append(false) every creation fails once the container has a child (C30_false), because insert_before is called on the first child. Proved for empty containers, and exactly when such a manager makes a style (C30_succeeds_iff)."
  },
  {
   "property": "C31",
   "status": "proved",
   "theorems": [
    "Manager.C31_records",
    "Manager.C31_read",
    "Manager.C31_once",
    "Manager.C31_twice"
   ],
   "note": "Each key once provided nothing is unregistered in between; C31_twice shows the hypothesis is needed."
  },
  {
   "property": "C32",
   "status": "proved",
   "theorems": [
    "Manager.C32_markup_reads_back",
    "Manager.C32_one_end_tag_each",
    "Manager.C32_server_page",
    "Manager.C32_limit_prefix"
   ],
   "note": "The escaper (html_escape::encode_style, a dependency) is a parameter about which only the absence of '</style' in its output is assumed. Reading is that of a small HTML tokenizer for style elements (Spec/Html.lean). Ids must not contain a quote; C32_limit_prefix shows why."
  },
  {
   "property": "C33",
   "status": "proved",
   "theorems": [
    "Manager.C33_loaded_class",
    "Manager.C33_hydration"
   ],
   "note": "End to end: server history, storage, serialization, load, client history. The serialized form is the serde data model; the data format (JSON, bincode) is a parameter in C36_format."
  },
  {
   "property": "C34",
   "status": "partial",
   "theorems": [
    "Manager.C34_exactly",
    "Manager.C34_scoped_partial",
    "Manager.C34_global_partial",
    "Manager.C34_false_global"
   ],
   "note": "Proved for scoped styles (C34_scoped_partial). For global styles the code is wrong: hydrated global styles are rendered under their id (C34_false_global); C34_global_partial gives the exact texts on both sides. C34_exactly: a browser reads the same on both sides exactly if no declaration of the global sheet stands in a block."
  },
  {
   "property": "C35",
   "status": "proved",
   "theorems": [
    "Manager.C35_panics_iff_conflict",
    "Manager.C35_effect"
   ],
   "note": ""
  },
  {
   "property": "C36",
   "status": "proved",
   "theorems": [
    "Manager.C36_roundtrip",
    "Manager.C36_format",
    "Manager.C36_load_same"
   ],
   "note": "Model of the derived serde implementations at the level of the serde data model."
  },
  {
   "property": "C37",
   "status": "proved",
   "theorems": [
    "Manager.C37_scoped_text",
    "Manager.C37_global_text"
   ],
   "note": "Scoped styles always; global styles if they were not loaded (see C34)."
  },
  {
   "property": "C38",
   "status": "proved",
   "theorems": [
    "Macros.C38_split",
    "Macros.C38_succeeds",
    "Macros.C38_unique",
    "Macros.C38_limit_special"
   ],
   "note": "Characterizes acceptance and the result; the value with arguments filled in is independent of the reading."
  },
  {
   "property": "C39",
   "status": "proved",
   "theorems": [
    "Macros.C39_substitutes",
    "Macros.C39_same_text",
    "Macros.C39_limit_escape"
   ],
   "note": "The sheet of the literal is the one the modelled run-time parser gives. Expressions are pure within one evaluation. C39_limit_escape: outside of CSS strings the parser rejects the escape."
  },
  {
   "property": "C40",
   "status": "proved",
   "theorems": [
    "Macros.C40_accepts_iff",
    "Macros.C40_first_token",
    "Macros.C40_arguments_unique",
    "Macros.C40_limit_raw_name"
   ],
   "note": "An exact characterization of acceptance. Names of arguments with raw identifiers keep the prefix r#, so that they can never be interpolated."
  },
  {
   "property": "C41",
   "status": "proved",
   "theorems": [
    "Macros.C41_text",
    "Macros.C41_emitted_text",
    "Macros.C41_no_adjacent"
   ],
   "note": ""
  },
  {
   "property": "C42",
   "status": "proved",
   "theorems": [
    "Macros.C42_cached_iff",
    "Macros.C42_evaluates",
    "Macros.C42_joined_text",
    "Macros.C42_stored"
   ],
   "note": "The meaning of the emitted Rust code (const, static, Lazy, vec!) is part of the trusted base; code that would not compile evaluates to none."
  },
  {
   "property": "C43",
   "status": "proved",
   "theorems": [
    "Macros.C43_same_as_run_time",
    "Macros.C43_limit_not_equal",
    "Macros.C43_limit_dollar"
   ],
   "note": "Equality of the rendered text. The sheets may differ as values (C43_limit_not_equal), and literals with a lone $ inside a string are rejected by the macro only (C43_limit_dollar)."
  },
  {
   "property": "C44",
   "status": "proved",
   "theorems": [
    "Inline.C44_spaced"
   ],
   "note": "Spacers with a state of their own are covered. 'between' in Spec/Inline is the specification."
  },
  {
   "property": "C45",
   "status": "proved",
   "theorems": [
    "Inline.C45_lossless",
    "Inline.C45_one",
    "Inline.C45_unique",
    "Inline.C45_terminates"
   ],
   "note": "Which token lists are Rust expressions is a parameter (syn). Groups without delimiter are left out. Tokens left over after the expression of ${..} are reported at once."
  },
  {
   "property": "C46",
   "status": "proved",
   "theorems": [
    "Inline.C46_code",
    "Inline.C46_macro",
    "Inline.C46_evaluated",
    "Inline.C46_unique",
    "Inline.C46_order",
    "Inline.C46_output_unique",
    "Inline.C46_limit_raw_string"
   ],
   "note": "Grammar 'Sheets' and output 'Emits' in Spec/Inline. Evaluation of emitted code as in C42. String literals are emitted as written (C46_limit_raw_string)."
  },
  {
   "property": "C47",
   "status": "partial",
   "theorems": [
    "Inline.C47_false",
    "Inline.C47_partial",
    "Inline.C47_panics_iff",
    "Inline.C47_panics_exactly"
   ],
   "note": "False as stated: C47_false gives two token streams on which the macro panics. Proved: no panic without braces inside of parentheses or brackets, and an exact characterisation of the panics for all token streams (C47_panics_exactly)."
  },
  {
   "property": "C48",
   "status": "proved",
   "theorems": [
    "Inline.C48_only_valid",
    "Inline.C48_block_in_block",
    "Inline.C48_limit_statement_rule"
   ],
   "note": "Exact: code is emitted iff the tokens are a sheet of the grammar (and the macro does not panic, C47). A panic of the macro is a compile error as well. At-rules without a block are always rejected (C48_limit_statement_rule)."
  },
  {
   "property": "C49",
   "status": "proved",
   "theorems": [
    "Yew.C49_global",
    "Yew.C49_alive_only_mounted"
   ],
   "note": "For every schedule of mounts, updates, unmounts and other operations, and for both orders in which Yew may drop the old guard and make the new style. \"Nobody else\" is the hypothesis that the other operations do not use global styles."
  },
  {
   "property": "C50",
   "status": "partial",
   "theorems": [
    "Yew.C50_false",
    "Yew.C50_shared_partial",
    "Yew.C50_exactly"
   ],
   "note": "False as stated (C50_false): the guard of one component unregisters the style another one still holds, and the next component makes a second element for the same css. Proved (C50_shared_partial) for schedules in which no such style has been unregistered while shared. C50_exactly: a Global and one mounted later with the same css and manager share a style if and only if nothing in between unregistered it."
  },
  {
   "property": "C51",
   "status": "partial",
   "theorems": [
    "Media.C51_false_query",
    "Media.C51_false_race",
    "Media.C51_first",
    "Media.C51_constant_partial",
    "Media.C51_after_change_partial",
    "Media.C51_exactly"
   ],
   "note": "False as stated: after the query given to the hook changes (C51_false_query), or when the media change between the first render and the effect (C51_false_race), the hook keeps the old value. Proved for a constant query without that race, and after the first reported change. C51_exactly: once the effect for the query has run and nothing is outstanding, the hook is right if and only if its value was right just before the effect or the browser has reported a change since."
  },
  {
   "property": "C52",
   "status": "proved",
   "theorems": [
    "Media.C52_first",
    "Media.C52_until_effect",
    "Media.C52_settled",
    "Media.C52_reaches_settled"
   ],
   "note": "For every schedule. C52_reaches_settled shows that the settled states the theorem speaks about can always be reached."
  },
  {
   "property": "C53",
   "status": "proved",
   "theorems": [
    "Yew.C53_same_class",
    "Yew.C53_one_style"
   ],
   "note": "The class is the same in every render, and at most one element is made, as long as nobody unregisters the style."
  },
  {
   "property": "C54",
   "status": "proved",
   "theorems": [
    "Manager.C54_equal",
    "Manager.C54_hash",
    "Manager.C54_lookup"
   ],
   "note": "HashMap lookup is modelled as: equal hash and equal key, for any hash function."
  },
  {
   "property": "C55",
   "status": "partial",
   "theorems": [
    "C55_false",
    "C55_false_rendered",
    "C55_exactly_plain",
    "C55_partial"
   ],
   "note": "False in general (C55_false, C55_false_rendered); holds for selectors whose commas are all separators or inside double-quoted strings. C55_exactly_plain (with C96_selector) gives the exact border."
  },
  {
   "property": "C56",
   "status": "partial",
   "theorems": [
    "C56_false",
    "C56_partial",
    "C56_exactly",
    "C56_exactly_plain"
   ],
   "note": "False of the code: C56_false. C56_partial covers the strings without structural characters. C56_exactly and C56_exactly_plain give the exact border."
  },
  {
   "property": "C57",
   "status": "partial",
   "theorems": [
    "Manager.C57_false_counter",
    "Manager.C57_random_partial",
    "Manager.C57_counter_exactly"
   ],
   "note": "False with counter entropy, i.e. feature random off (C57_false_counter). Proved for entropy that, as far as used, is distinct across both processes (C57_random_partial); how rarely random entropy is not: C118_hydration. C57_counter_exactly: with the counter, a new class of the server and a new class of the client coincide if and only if both processes have handed out the same number of ids before (modulo 2^64) and the words before the number are the same."
  },
  {
   "property": "C58",
   "status": "partial",
   "theorems": [
    "Manager.C58_false_unregister",
    "Manager.C58_loads_partial",
    "Manager.C58_panics_iff_partial"
   ],
   "note": "False if the server unregisters and recreates a style (C58_false_unregister). Proved for servers that do not unregister (C58_loads_partial); in general the panic is characterized exactly: it happens if and only if the manager created two styles of the same kind, prefix and css (C58_panics_iff_partial)."
  },
  {
   "property": "C59",
   "status": "partial",
   "theorems": [
    "C59_layout_partial",
    "C59_same_style_partial",
    "C59_false",
    "C59_limit_semicolons",
    "C59_limit_space",
    "C59_exactly",
    "C59_exactly_layouts",
    "C59_exactly_same"
   ],
   "note": "False for blanks alone between the braces of an at-rule in a block, of a frame or of @keyframes (C59_false). Proved for every other layout in the grammar Spec/Layout. C59_exactly: the border is exact; with such braces anywhere the text is refused (grammar Spec/Wide, whose texts without such braces are those of Spec/Layout, C59_exactly_layouts). C59_limit_semicolons and C59_limit_space show what is not a layout of the same css for this parser."
  },
  {
   "property": "C60",
   "status": "partial",
   "theorems": [
    "C60_exactly",
    "C60_false",
    "C60_false_rendered",
    "C60_false_selectors",
    "C60_declarations_partial"
   ],
   "note": "False if a block follows whose selector begins with an identifier and a colon, such as p:hover (C60_false, C60_false_rendered): the declarations are taken for a part of the selector. Proved for everything else (C60_declarations_partial). C60_exactly: the condition is exact, for every text in the layouts of C59 whose first selector does not end in a colon."
  },
  {
   "property": "C61",
   "status": "proved",
   "theorems": [
    "Context.C61_use_style",
    "Context.C61_classes"
   ],
   "note": "What Yew's contexts do is assumed (DESIGN.md)."
  },
  {
   "property": "C62",
   "status": "proved",
   "theorems": [
    "Context.C62_children",
    "Context.C62_other_manager",
    "Context.C62_server_to_client",
    "Context.C62_rerender_same"
   ],
   "note": "That the css is not unregistered in between is a hypothesis. Whether mounting succeeds is C63."
  },
  {
   "property": "C63",
   "status": "partial",
   "theorems": [
    "Context.C63_panics_iff",
    "Context.C63_false",
    "Context.C63_fresh_partial"
   ],
   "note": "False as stated: C63_false (the client's manager already has the style under another class), C58_false_unregister (the server recreated a style). C63_panics_iff characterizes the panic exactly; C63_fresh_partial covers servers that do not unregister and managers without styles."
  },
  {
   "property": "C64",
   "status": "proved",
   "theorems": [
    "Context.C64_default_stays",
    "Context.C64_first_use",
    "Context.C64_same_class"
   ],
   "note": ""
  },
  {
   "property": "C65",
   "status": "proved",
   "theorems": [
    "Context.C65_stays_styled",
    "Context.C65_limit_unmount"
   ],
   "note": "For ids that are CSS identifiers and pairwise distinct, as in C22. C65_limit_unmount: the element goes with the last handle of the manager."
  },
  {
   "property": "C66",
   "status": "proved",
   "theorems": [
    "Manager.C66_class_name",
    "Manager.C66_exactly"
   ],
   "note": "C66_exactly: which prefixes give classes that are CSS identifiers: besides identifiers only a single dash, and the empty prefix if the style is global or the entropy does not begin with a digit (random strings may, the counter does not)."
  },
  {
   "property": "C67",
   "status": "proved",
   "theorems": [
    "Manager.C67_sequential",
    "Manager.C67_program_order",
    "Manager.C67_distinct_classes",
    "Manager.C67_style_data",
    "Manager.C67_no_panic",
    "Manager.C67_own_managers"
   ],
   "note": "Atomic steps: taking a number, and the rest of a call (which holds the lock of the style data while it pushes to it); see Model/Threads. C67_own_managers: a manager and its styles are usable in the thread that made it and nowhere else."
  },
  {
   "property": "C68",
   "status": "proved",
   "theorems": [
    "C68_browser_reads",
    "C68_limit_open",
    "C68_exactly",
    "C68_limit_backslash"
   ],
   "note": "Reader in Spec/Browser, independent of the model: it splits at braces and semicolons outside of strings, comments, escapes and brackets. It does not treat unquoted url(..) specially. C68_limit_open: the parser accepts unclosed quotes and brackets in places, whose sheets a browser reads otherwise. C68_exactly: the declarations are read back, without a comment, if and only if each of them is whole on its own with its headers. C68_limit_backslash: why texts that end with a backslash are left out of it."
  },
  {
   "property": "C69",
   "status": "proved",
   "theorems": [
    "Manager.C69_css_on_page",
    "Manager.C69_server",
    "Context.C69_component"
   ],
   "note": "For the layouts of C59_layout_partial. C69_css_on_page for pages, C69_server for static markup, C69_component for use_style and css!. Ids as in C22."
  },
  {
   "property": "C70",
   "status": "partial",
   "theorems": [
    "Select.C70_false",
    "Select.C70_meaning_partial",
    "Select.C70_applies_partial",
    "Select.C70_in_the_text_partial",
    "Select.C70_depth",
    "Select.C70_brackets_partial",
    "Select.C70_brackets_in_the_text_partial"
   ],
   "note": "False in general (C70_false): & and :root are replaced in strings and inside of names too, and & directly before a name merges with it. The partial theorems cover selectors in which & and :root stand on their own outside of strings; C70_brackets_partial and C70_brackets_in_the_text_partial also in brackets of pseudo-classes that take a list of selectors, such as :not(&) and :has(> &), to any depth (C70_depth: the depth bound in the meaning does not matter). Meaning of selectors in Spec/Select and Spec/SelectDeep, for any meaning of simple selectors and of pseudo-classes; a namespace is part of a simple selector, and || is not read. C70_in_the_text_partial states it for the text that a browser reads."
  },
  {
   "property": "C71",
   "status": "proved",
   "theorems": [
    "Select.C71_stays_inside",
    "Select.C71_in_the_text",
    "Select.C71_limit",
    "Manager.C71_on_page",
    "Select.C71_limit_not"
   ],
   "note": "For selectors as in C70_meaning_partial. C71_limit: & + p goes to siblings by intention; an interpolated list of selectors leaks, only its first selector being scoped. C71_limit_not: p:not(&) applies outside by intention."
  },
  {
   "property": "C72",
   "status": "partial",
   "theorems": [
    "Macros.C72_exactly",
    "Macros.C72_values_stay_partial",
    "Macros.C72_false",
    "Manager.C72_debug_check"
   ],
   "note": "False for arbitrary values (C72_false): a value with a semicolon or braces adds declarations, even ones outside of the scope, and passes the check of debug builds. C72_values_stay_partial covers closed values (strings and brackets closed, no semicolons, braces or comments outside of them) in places outside of strings, and values without quotes, backslashes and line breaks in places inside of strings. C72_debug_check: what debug builds do check. C72_exactly: the exact border, for all values: the declarations with the values put in are read exactly if each of them is whole on its own."
  },
  {
   "property": "C73",
   "status": "proved",
   "theorems": [
    "Inline.C73_declarations",
    "Inline.C73_inline_reads",
    "Inline.C73_limit_comment"
   ],
   "note": "Plain tokens: identifiers of letters, digits, _ and other non-ASCII characters, closed literals and values, no braces in brackets, no / before *. C73_limit_comment: a / before a * becomes a comment. The declarations (Spec/Written) are read off the items of the token grammar of C46. C73_declarations is about the evaluated sheet itself and needs nothing of the texts."
  },
  {
   "property": "C74",
   "status": "partial",
   "theorems": [
    "Inline.C74_exactly",
    "Inline.C74_same_partial",
    "Inline.C74_false"
   ],
   "note": "False in general (C74_false): blanks are lost, e.g. in the documented example `@media screen and (max-width: 500px)`, which is printed as `and(max-width:500px)`, in descendant selectors (documented), and between interpolated values. C74_same_partial covers strings whose values, selectors and conditions have blanks just where inline css prints them; layout and comments elsewhere are free. C74_exactly: for plain inline css and a whole string with the same arrangement, the texts are equal exactly if the declarations are."
  },
  {
   "property": "C75",
   "status": "partial",
   "theorems": [
    "Select.C75_brackets_partial",
    "Select.C75_brackets_in_the_text_partial",
    "Select.C75_false",
    "Select.C75_meaning_partial",
    "Select.C75_in_the_text_partial"
   ],
   "note": "False in general (C75_false): & is replaced in strings too and merges with a name after it. The partial theorems cover selectors in which & stands on its own outside of strings, C75_brackets_partial and C75_brackets_in_the_text_partial also in brackets of pseudo-classes that take a list of selectors. The meaning of selectors is that of C70."
  },
  {
   "property": "C76",
   "status": "proved",
   "theorems": [
    "Manager.C76_parse",
    "Manager.C76_web",
    "Manager.C76_build",
    "Manager.C76_others",
    "Manager.C76_limit_read"
   ],
   "note": "C76_limit_read: the error ReadFailed, documented for reading style data after a panic or from a reader whose writer was dropped, is never returned; reading gives what was recorded until then, or nothing."
  },
  {
   "property": "C77",
   "status": "proved",
   "theorems": [
    "Sources.C77_classes",
    "Sources.C77_plain",
    "Sources.C77_equal",
    "Sources.C77_use_style",
    "Sources.C77_limit_other_uses",
    "Sources.C77_limit_last"
   ],
   "note": "C77_limit_other_uses: Style, GlobalStyle and use_style drop the manager that a source carries and use the one they are called with, so the same source gives different classes. C77_limit_last: a source with the last handle of a manager becomes a class without an element."
  },
  {
   "property": "C78",
   "status": "partial",
   "theorems": [
    "Inline.C78_documented_partial",
    "Inline.C78_exactly",
    "Inline.C78_false"
   ],
   "note": "Proved for css in which no `&` is directly before an identifier, literal, function, `*` or `#`. Elsewhere it is false (C78_false): `& p` has a blank, though `&` is not in the documented list. C78_exactly: for all inline css the blanks are exactly where the documented rule says once `&` is added to what may stand to the left of a blank."
  },
  {
   "property": "C79",
   "status": "partial",
   "theorems": [
    "C79_false",
    "C79_partial",
    "C79_exactly",
    "C79_exactly_plain"
   ],
   "note": "Proved for urls without `$ { ; } \"` and without the beginning of a comment. Elsewhere it is false (C79_false): a semicolon ends the value, so data urls are rejected or split into two declarations. C79_exactly and C79_exactly_plain give the exact border."
  },
  {
   "property": "C80",
   "status": "proved",
   "theorems": [
    "C80_rejected",
    "C80_error",
    "C80_at_rules",
    "C80_limit_space",
    "C80_limit_brackets"
   ],
   "note": "C80_rejected: Layout u s followed by a Broken text (blanks alone between the braces of an at-rule in a block, a frame or @keyframes count as broken too) or by a closing brace is not accepted; C80_error: creating a style from it is Error::Parse and leaves every manager, registry and page as it is; C80_at_rules: the at-rules that can be accepted. C80_limit_space: @media( without a space counts as not supported. C80_limit_brackets: brackets are not blocks, one that is never closed is accepted."
  },
  {
   "property": "C81",
   "status": "proved",
   "theorems": [
    "Evaluation.C81_in_order",
    "Evaluation.C81_again",
    "Evaluation.C81_trace",
    "Evaluation.C81_agrees"
   ],
   "note": "C81_in_order: a run of the expansion is the run of the expressions between `${` and `}` in source order; C81_again: also for every further evaluation, whatever the static of the sheet holds; C81_trace: the log of evaluated expressions is the list of written ones; C81_agrees: with expressions without effects it is the evaluator of Model/Output."
  },
  {
   "property": "C82",
   "status": "partial",
   "theorems": [
    "Evaluation.C82_false",
    "Evaluation.C82_false_order",
    "Evaluation.C82_per_use_partial",
    "Evaluation.C82_once_partial",
    "Evaluation.C82_exactly",
    "Evaluation.C82_uses_unique"
   ],
   "note": "C82_false: an argument used twice is evaluated twice. C82_false_order: arguments are evaluated in the order of their uses. C82_per_use_partial: one evaluation for each use, in the order of the uses, stopping at the first without a value, each value in its place. C82_once_partial: if no name is used twice, every argument is evaluated exactly once. C82_exactly: for arguments with pairwise different expressions, every argument is evaluated exactly once if and only if no name is used twice, and exactly once and in the order given if and only if the uses are the arguments in their order. Missing: once, and in the order given, for all calls, which is false."
  },
  {
   "property": "C83",
   "status": "partial",
   "theorems": [
    "Evaluation.C83_false",
    "Evaluation.C83_inline_partial",
    "Evaluation.C83_literal_partial",
    "Evaluation.C83_inline_exactly",
    "Evaluation.C83_literal_exactly"
   ],
   "note": "C83_false: `css!(color: ${Sheet};)` sees the `Sheet` imported by the emitted block instead of that of the surrounding code. C83_inline_partial and C83_literal_partial: if none of the names From, Into and Sheet occurs in an expression, every evaluation is the same as with the expressions run in the surrounding context. Missing: expressions with these names, for which it is false. C83_inline_exactly and C83_literal_exactly: the property holds of a macro call for all evaluations if and only if none of its expressions (arguments) mentions one of these names."
  },
  {
   "property": "C84",
   "status": "proved",
   "theorems": [
    "Steps.C84_result",
    "Steps.C84_polynomial"
   ],
   "note": "The steps are counted by the parser with a counter of Model/Steps, which gives the results of Model/Parser (C84_result). The constant is not tight. Steps stand for time up to a constant factor; building error messages is not counted."
  },
  {
   "property": "C85",
   "status": "proved",
   "theorems": [
    "Report.C85_result",
    "Report.C85_message",
    "Report.C85_alone",
    "Report.C85_broken",
    "Report.C85_limit_inside",
    "Report.C85_limit_selector"
   ],
   "note": "The message is that of nom 7's `convert_error`, which is modelled from its documentation and source; the two limits show that an error inside of a block is reported at the outermost item, and that a missing semicolon in front of a block is not found at all."
  },
  {
   "property": "C86",
   "status": "proved",
   "theorems": [
    "Manager.C86_inline_on_page",
    "Manager.C86_literal_on_page",
    "Manager.C86_inline_server",
    "Manager.C86_literal_server",
    "Context.C86_inline_component",
    "Context.C86_literal_component"
   ],
   "note": "Composition of C73 and C72 with the general form of C69 (source_on_page, source_server, source_component). Plain and closed values as in C73 and C72, whose limits apply. Ids as in C22."
  },
  {
   "property": "C87",
   "status": "partial",
   "theorems": [
    "C87_one_after_the_other_partial",
    "C87_after_block",
    "C87_false",
    "C87_exactly",
    "C87_exactly_lost"
   ],
   "note": "False: after loose declarations a block whose selector begins with an identifier and a colon swallows them (C87_false). Proved for all texts in the layouts of C59 that do not meet in this way. C87_after_block: without conditions on the second text if the first does not end in loose declarations. C87_exactly: the condition is exact (if the first selector of the second text does not end in a colon); C87_exactly_lost: where it fails, the sheet of the first text is not the beginning of the result."
  },
  {
   "property": "C88",
   "status": "proved",
   "theorems": [
    "Inline.C88_all_mistakes",
    "Inline.C88_outcome",
    "Inline.C88_no_mistakes",
    "Inline.C88_limit_nested",
    "Inline.C88_limit_hidden"
   ],
   "note": "An exact characterisation of the four outcomes (parse error, panic, errors, code) for every token stream. C88_limit_nested: what is in a block in a block is not looked at. C88_limit_hidden: a parse error or a panic (C47) hides all mistakes."
  },
  {
   "property": "C89",
   "status": "proved",
   "theorems": [
    "Context.C89_components",
    "Manager.C89_elements",
    "Manager.C89_application",
    "Manager.C89_limit_again",
    "Manager.C89_limit_containers"
   ],
   "note": "Two limits are shown: a style that is made again while it is registered keeps its place (C89_limit_again), and the order is per container (C89_limit_containers). Sheets have to consist of whole texts for the part about the browser, as in C68."
  },
  {
   "property": "C90",
   "status": "proved",
   "theorems": [
    "Literal.C90_error_iff",
    "Literal.C90_code_iff",
    "Literal.C90_unused",
    "Literal.C90_limit_missing",
    "Literal.C90_limit_generic",
    "Literal.C90_limit_first"
   ],
   "note": "Shown besides: the error for a missing argument shows the whole text and not the name (C90_limit_missing), a comma inside of angle brackets ends an argument (C90_limit_generic), and only the first mistake is reported (C90_limit_first). Spans and the wording are not modelled."
  },
  {
   "property": "C91",
   "status": "proved",
   "theorems": [
    "Context.C91_components",
    "Cascade.C91_weight",
    "Cascade.C91_in_a_style",
    "Cascade.C91_one_winner",
    "Manager.C91_on_the_page",
    "Manager.C91_later_wins",
    "Manager.C91_later_class_wins",
    "Manager.C91_limit_again"
   ],
   "note": "Later means created later: a style that is made again keeps its place, so it may lose against one made in between (C91_limit_again). Simple selectors, their weights, at-rules and importance are parameters, so pseudo-classes with selectors in brackets are covered as long as they do not mention the current element. Layers, inline styles, other sheets and shorthands are not modelled."
  },
  {
   "property": "C92",
   "status": "partial",
   "theorems": [
    "Manager.C92_elements",
    "Manager.C92_application_partial",
    "Manager.C92_false_counter",
    "Manager.C92_limit_order",
    "Locks.C92_threads_partial"
   ],
   "note": "False with ids from the counter (C92_false_counter): the ids of two processes coincide, and dropping the client's style removes the server's element. Proved for ids that, as far as used, are different also across the processes, as with the feature random (how often: C118). The order among the server's styles is that of the server also if the client makes them in another order (C92_limit_order). Also for a server with threads, whatever the schedule, with data read by any thread (C92_threads_partial)."
  },
  {
   "property": "C93",
   "status": "proved",
   "theorems": [
    "Yew.C93_hydrated_global",
    "Yew.C93_limit_unused"
   ],
   "note": "For a style that only Global components ask for, that nobody asked for before the data is loaded, and for ids that are distinct css identifiers. C93_limit_unused: a global style of the server that no Global ever asks for stays in the document."
  },
  {
   "property": "C94",
   "status": "partial",
   "theorems": [
    "Shared.C94_pieces",
    "Shared.C94_same_sheet_iff",
    "Shared.C94_same_class_partial",
    "Shared.C94_false",
    "Shared.C94_limit_empty",
    "Shared.C94_limit_interpolated"
   ],
   "note": "C94_same_class_partial: exactly the css without at-rules (and without empty values) shares its class. C94_false: with an at-rule there are two classes and two elements, since the macro merges the two fragments of a condition that the run-time parser makes. C94_pieces says which sheet the macro gives. C94_limit_interpolated: a value that is filled in is a fragment of its own."
  },
  {
   "property": "C95",
   "status": "proved",
   "theorems": [
    "Depth.C95_result",
    "Depth.C95_enough",
    "Depth.C95_exact",
    "Depth.C95_limit_unbounded"
   ],
   "note": "C95_exact: accepted css exhausts the stack exactly when it is nested at least as deep as there is room. C95_enough: any text, also a rejected one, is read when there is more room than it has opening braces. C95_result: else the result is that of the parser. C95_limit_unbounded: for every stack there is a valid text that aborts the program."
  },
  {
   "property": "C96",
   "status": "proved",
   "theorems": [
    "C96_value",
    "C96_value_lost",
    "C96_selector",
    "C96_selector_lost",
    "C96_condition",
    "C96_animation"
   ],
   "note": "C96_value, C96_selector, C96_condition and C96_animation are equivalences. C96_value_lost and C96_selector_lost: a text outside of the grammar is not even the first value or selector of a longer result. C56_exactly and C79_exactly give the exact border for single-quoted strings and unquoted urls, where the full properties are false."
  },
  {
   "property": "C97",
   "status": "proved",
   "theorems": [
    "Classes.C97_given",
    "Classes.C97_debug_and_release",
    "Classes.C97_limit_space",
    "Manager.C97_on_page"
   ],
   "note": "C97_given is the equivalence for attributes, C97_on_page takes css to the elements of a page, C97_debug_and_release compares builds. Ids are assumed to be distinct css identifiers without white space; C21 and C66 give that for prefixes that are. C97_limit_space: with white space in the prefix an element does not get its style, and with white space in the path of a source file the location can be the class of another style."
  },
  {
   "property": "C98",
   "status": "partial",
   "theorems": [
    "Manager.C98_false",
    "Manager.C98_alive_partial",
    "Manager.C98_exactly",
    "Manager.C98_never_removed",
    "Manager.C98_reads",
    "Yew.C98_global_stays"
   ],
   "note": "False: C98_false. The element is looked for with query_selector on the document, which reaches neither shadow roots nor frames. C98_alive_partial: while the style is alive, its element is there. C98_exactly: in every reachable state the container has the elements of all styles ever made for it, alive or not, in the order of creation. C98_never_removed: no history removes one. C98_reads: what a browser reads there. C98_global_stays: the css of every Global ever rendered there stays."
  },
  {
   "property": "C99",
   "status": "partial",
   "theorems": [
    "C99_reader",
    "C99_animations",
    "C99_parsed",
    "C99_no_class",
    "Manager.C99_page",
    "Manager.C99_exactly",
    "Manager.C99_distinct_partial",
    "Manager.C99_false",
    "Context.C99_components"
   ],
   "note": "False: C99_false. The names of animations are not scoped, so the style made last decides for all. C99_reader: the reader of animations is the reader of C70. C99_animations: the text of a style has exactly the animations of its sheet, with their frames and conditions. C99_parsed: sheets that come from css meet the assumption. C99_no_class: the class is not part of them. C99_page: the animations of a page are those of the living styles in the order of creation. C99_exactly: when a style gets its own. C99_distinct_partial: always if the names of living styles differ. C99_components: the same for applications of components."
  },
  {
   "property": "C100",
   "status": "proved",
   "theorems": [
    "Yew.C100_page",
    "Yew.C100_limit_equal"
   ],
   "note": "C100_page: the texts of the style elements, and the declarations that a browser reads. Components with equal css under one manager are excluded; C100_limit_equal shows that they share an element, which stays at the place of the first one."
  },
  {
   "property": "C101",
   "status": "proved",
   "theorems": [
    "Manager.C101_page",
    "Manager.C101_class",
    "Manager.C101_server",
    "Manager.C101_limit_unregister",
    "Manager.C101_limit_fail"
   ],
   "note": "C101_page, C101_class, C101_server. C101_limit_unregister and C101_limit_fail show what the two conditions on the history exclude. On the page all managers must be in use at the end, since dropping the last handle of one removes styles nobody keeps."
  },
  {
   "property": "C102",
   "status": "proved",
   "theorems": [
    "Storage.C102_reads_iff",
    "Storage.C102_rejects_iff",
    "Storage.C102_unambiguous"
   ],
   "note": "C102_reads_iff, C102_rejects_iff, C102_unambiguous. What serde's derived code accepts is trusted: fields by name or by position, unknown fields ignored, repeated and missing ones rejected."
  },
  {
   "property": "C103",
   "status": "proved",
   "theorems": [
    "C103_accepted",
    "C103_rejected",
    "C103_one_reading"
   ],
   "note": "C103_accepted, C103_rejected, C103_one_reading. The grammar is Spec/Accepted; it does not mention the parser."
  },
  {
   "property": "C104",
   "status": "partial",
   "theorems": [
    "Inline.C104_false",
    "Inline.C104_parses_partial",
    "Inline.C104_creates_partial",
    "Inline.C104_tokens_partial"
   ],
   "note": "C104_false: it does not hold of all inline css. C104_parses_partial, C104_creates_partial: it holds if, with the values put in, declarations, conditions and selectors are texts of css in a string (`Checked`). C104_tokens_partial: this is so for ordinary tokens (`Ordinary`): no `$`, `;`, braces outside of strings, no `/` and `@` in selectors, no `/` before `*`, `/` or a string, nothing empty, and values of expressions of the same kind. Missing: that these are exactly the ones."
  },
  {
   "property": "C105",
   "status": "partial",
   "theorems": [
    "Styled.C105_managers",
    "Styled.C105_variables",
    "Styled.C105_hidden",
    "Styled.C105_hygiene",
    "Styled.C105_exactly",
    "Styled.C105_partial",
    "Styled.C105_false",
    "Styled.C105_attributes"
   ],
   "note": "C105_managers, C105_variables and C105_hidden hold of all code, C105_exactly says when it compiles, C105_partial proves the claim for bodies without functions, macros and closures with `move`. C105_false: a css! after a closure with `move` that uses css!, and a css! in a function inside of the component, do not compile."
  },
  {
   "property": "C106",
   "status": "proved",
   "theorems": [
    "C106_length",
    "C106_css",
    "C106_cubic"
   ],
   "note": "C106_length bounds headers and text by the size of the sheet, C106_css by the length of the css, C106_cubic is the family that reaches the order."
  },
  {
   "property": "C107",
   "status": "proved",
   "theorems": [
    "Panic.C107_create",
    "Panic.C107_error",
    "Panic.C107_use_style",
    "Panic.C107_css",
    "Panic.C107_global",
    "Panic.C107_use_style_ok",
    "Panic.C107_after",
    "Panic.C107_prop",
    "Panic.C107_default",
    "Panic.C107_limit_default"
   ],
   "note": "C107_create and C107_error for the calls without Yew, C107_use_style, C107_css and C107_global for the places, C107_after for the state after a panic, C107_prop for strings, C107_default for the default manager. C107_limit_default: the second message does not name the cause. The page is unchanged under the condition of C26."
  },
  {
   "property": "C108",
   "status": "proved",
   "theorems": [
    "Manager.C108_panics",
    "Manager.C108_written",
    "Manager.C108_else_same",
    "Manager.C108_limit_loaded"
   ],
   "note": "C108_panics for sheets, C108_written from the css, C108_else_same for the rest of the effect. C108_limit_loaded: a style loaded with style data is not checked."
  },
  {
   "property": "C109",
   "status": "proved",
   "theorems": [
    "Stack.C109_result",
    "Stack.C109_enough",
    "Stack.C109_needed",
    "Stack.C109_limit_twice",
    "Stack.C109_parsed"
   ],
   "note": "C109_result, C109_enough, C109_needed, C109_parsed. C109_limit_twice: for every depth there is a sheet that needs two calls for each level."
  },
  {
   "property": "C110",
   "status": "proved",
   "theorems": [
    "Work.C110_result",
    "Work.C110_polynomial",
    "Work.C110_css"
   ],
   "note": "C110_result (the counter does not change the text), C110_polynomial, C110_css."
  },
  {
   "property": "C111",
   "status": "proved",
   "theorems": [
    "Counts.C111_counting",
    "Counts.C111_exact",
    "Counts.C111_freed",
    "Counts.C111_no_leak",
    "Counts.C111_mounted"
   ],
   "note": "C111_counting (the model with counts does what the model of C20 - C37 does), C111_exact, C111_freed, C111_no_leak, C111_mounted."
  },
  {
   "property": "C112",
   "status": "proved",
   "theorems": [
    "Manager.C112_registered",
    "Manager.C112_living",
    "Manager.C112_page",
    "Manager.C112_limit_kept",
    "Manager.C112_limit_unbounded",
    "Css.C112_cache",
    "Css.C112_limit_cache"
   ],
   "note": "C112_registered, C112_living, C112_page (in the setting of C89), C112_cache; the limits are theorems: C112_limit_kept, C112_limit_unbounded (for every n), C112_limit_cache."
  },
  {
   "property": "C113",
   "status": "proved",
   "theorems": [
    "Compact.C113_reads_iff",
    "Compact.C113_roundtrip",
    "Compact.C113_load_same",
    "Compact.C113_truncated",
    "Compact.C113_written_iff",
    "Compact.C113_limit_changed"
   ],
   "note": "C113_reads_iff, C113_roundtrip, C113_load_same, C113_truncated, C113_written_iff. C113_limit_changed: there is no check sum. Bincode itself is modelled (fixed numbers, bytes left over are ignored), not taken from the repository; base64 is not."
  },
  {
   "property": "C114",
   "status": "proved",
   "theorems": [
    "Css.C114_no_deadlock",
    "Css.C114_owner_returns",
    "Css.C114_answered_once",
    "Css.C114_all_end",
    "Css.C114_throughput",
    "Css.C114_limit_unfair"
   ],
   "note": "C114_no_deadlock, C114_owner_returns, C114_answered_once, C114_all_end, C114_throughput. C114_limit_unfair: a thread may wait while any number of calls of another one end. A panic inside of the parser, which would poison the lock, is not modelled (the parser has no panic of its own)."
  },
  {
   "property": "C115",
   "status": "proved",
   "theorems": [
    "Manager.C115_stops_at_error",
    "Manager.C115_string",
    "Manager.C115_kept",
    "Manager.C115_buffer",
    "Manager.C115_cut_page",
    "Manager.C115_whole_page"
   ],
   "note": "C115_stops_at_error, C115_string, C115_kept, C115_buffer, C115_cut_page, C115_whole_page. As in C32, the escaper is a parameter that leaves no '</style', and ids have no quotes. Reading to an early end is that of Spec/Writer.lean. write_fmt is taken to be that of the standard library."
  },
  {
   "property": "C116",
   "status": "proved",
   "theorems": [
    "Locks.C116_sequential",
    "Locks.C116_program_order",
    "Locks.C116_style_data",
    "Locks.C116_no_poison",
    "Locks.C116_one_lock",
    "Locks.C116_no_deadlock",
    "Locks.C116_all_end"
   ],
   "note": "C116_sequential, C116_program_order, C116_style_data, C116_no_poison, C116_one_lock, C116_no_deadlock, C116_all_end. Memory is sequentially consistent, as all that is shared is behind a mutex or a SeqCst counter. Mutexes are not fair (see C114_limit_unfair). A parser that overflows its stack (C95) ends the process and is not modelled here."
  },
  {
   "property": "C117",
   "status": "proved",
   "theorems": [
    "Locks.C117_page",
    "Locks.C117_apart",
    "Locks.C117_browser",
    "Locks.C117_limit_unregister"
   ],
   "note": "C117_page, C117_apart, C117_browser. The manager is made before the data are read. C117_limit_unregister: after unregister the same css is recorded again. For C117_apart the counter has not wrapped or the random strings are different; on the numbers see C67."
  },
  {
   "property": "C118",
   "status": "proved",
   "theorems": [
    "Manager.C118_strings",
    "Manager.C118_classes",
    "Manager.C118_all",
    "Manager.C118_exactly",
    "Manager.C118_rare",
    "Manager.C118_too_many",
    "Manager.C118_fresh",
    "Manager.C118_history",
    "Manager.C118_threads",
    "Manager.C118_hydration"
   ],
   "note": "C118_strings, C118_classes, C118_all, C118_exactly, C118_rare, C118_fresh (the assumption FreshIds of C21, C22, C49, C67, C89, C91, C94, C99, C100, C101, C111, C112 and C117), C118_too_many, C118_history, C118_threads, C118_hydration. It is counted over all sequences of results of fastrand::u8(..62); that these are equally likely is an assumption on the crate fastrand, which is not modelled. An example shows a sequence with which classes do coincide."
  },
  {
   "property": "C119",
   "status": "proved",
   "theorems": [
    "Locks.C119_sent",
    "Locks.C119_page",
    "Locks.C119_hydration",
    "Locks.C119_limit_unregister"
   ],
   "note": "C119_sent, C119_page, C119_hydration. C119_limit_unregister: after unregistering, the data have the style twice and loading panics. That global styles have another text in the browser is C34."
  },
  {
   "property": "C120",
   "status": "proved",
   "theorems": [
    "Locks.C120_request"
   ],
   "note": "C120_request. Ids that differ: FreshIds, that is the counter before it wraps, or random strings that differ as far as they are used (how often: C118). Selectors are those of C70 and C75."
  },
  {
   "property": "C121",
   "status": "proved",
   "theorems": [
    "Manager.C121_order",
    "Manager.C121_builds",
    "Manager.C121_told",
    "Manager.C121_class",
    "Manager.C121_place",
    "Manager.C121_equal",
    "Locks.C121_threads"
   ],
   "note": "C121_order, C121_builds, C121_told, C121_class, C121_place, C121_equal, C121_threads (for servers with threads). Nodes that are told are nodes of the page and the head is one. Prepending into a container with children fails, see C30."
  }
 ]
}