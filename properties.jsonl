{"id": "C01", "title": "Rendering puts every declaration under exactly its conditions", "statement": "For every Sheet (any nesting of blocks and at-rules, any strings) and every class name (without ':') or none, the text returned by to_style_str is the layout of a stream of headers, declarations and closing braces which, when read with a stack of open headers, yields exactly the declarations of the sheet, in source order, none lost or duplicated, each under exactly its chain of at-rule conditions followed by its selector.", "quantifier": "every sheet tree, of any depth and width, with arbitrary strings; every class name without ':' (no css identifier has one; what happens with one is shown by a separate theorem); scoped and global", "why_tests_cant": "The nesting logic (close_until_common_parent, reopening a parent that a child closed) depends on arbitrarily deep open/closed context chains; tests exercise a handful of shapes.", "anchors": ["packages/stylist-core/src/ast/context.rs: StyleContext::start/finish/close_until_common_parent/common_conditions", "packages/stylist-core/src/ast/block.rs: Block::write_style", "packages/stylist-core/src/ast/rule.rs: Rule::write_style", "packages/stylist-core/src/ast/style_attr.rs", "packages/stylist-core/src/ast/sheet.rs"]}
{"id": "C02", "title": "Rendered text is well bracketed", "statement": "In the stream of headers and closing braces that makes up the rendered text, no closing brace ever appears without an open header and at the end of the text every header has been closed; if no string of the sheet contains a brace then the '{' and '}' characters of the text itself balance, with no prefix having more '}' than '{'.", "quantifier": "every sheet, every class name; for the character-level part every sheet and class without brace characters", "why_tests_cant": "Requires reasoning about every sequence of opens and closes that arbitrary nesting may cause.", "anchors": ["packages/stylist-core/src/ast/context.rs: start, finish"]}
{"id": "C03", "title": "Indentation follows nesting depth", "statement": "Every header, declaration and closing brace in the rendered text is indented by exactly four spaces per enclosing open header.", "quantifier": "every sheet and class name", "why_tests_cant": "Padding is computed from the open ancestor at the time of writing, in every reachable open/closed state.", "anchors": ["packages/stylist-core/src/ast/context.rs: write_padding, write_min_padding, write_padding_impl"]}
{"id": "C04", "title": "Empty blocks vanish, keyframes are always printed", "statement": "A sheet in which no declaration and no @keyframes at-rule occurs renders to the empty string; conversely an at-rule whose condition starts with '@keyframes' is always printed (header and closing brace) even when it has no content, and the rendered text is empty only if the sheet has neither. No other block is printed empty: a header is followed directly by its closing brace only if it is that of an @keyframes.", "quantifier": "every sheet and class name; for the place of the printed @keyframes and for the empty blocks every class name without ':'", "why_tests_cant": "Must hold for all shapes of empty nestings.", "anchors": ["packages/stylist-core/src/ast/rule.rs: always_print", "packages/stylist-core/src/ast/context.rs: start, finish"]}
{"id": "C05", "title": "Scoping rule of selectors", "statement": "For a scoped style with class c and a selector text s: if s contains '&' or ':root' the printed selector is s with every '&' and every ':root' replaced by .c; otherwise if s starts with ':' it is .c directly followed by s; otherwise it is .c, a space and s. In every case the printed selector contains .c. The selectors of a block are printed separated by ', '.", "quantifier": "every class name without ':' and '&', every selector text and selector list", "why_tests_cant": "String substitution on arbitrary text.", "anchors": ["packages/stylist-core/src/ast/selector.rs: Selector::write_style", "packages/stylist-core/src/ast/block.rs: Block::cond_str", "packages/stylist/src/style.rs: Style docs"]}
{"id": "C06", "title": "Global styles: current selector is the root", "statement": "For a global style a selector is printed unchanged except that every '&' becomes ':root'; dangling declarations are printed under ':root'.", "quantifier": "every selector text, every sheet", "why_tests_cant": "Arbitrary text; tests use fixed strings.", "anchors": ["packages/stylist-core/src/ast/selector.rs", "packages/stylist-core/src/ast/context.rs: with_block_condition", "packages/stylist/src/global_style.rs"]}
{"id": "C07", "title": "Dangling declarations apply to the generated class", "statement": "Declarations not inside any block with selectors (at the top level or inside any nesting of at-rules) are printed under the generated class of a scoped style, and under ':root' for a global one.", "quantifier": "every nesting of at-rules around the dangling block; every class name", "why_tests_cant": "Arbitrary nesting depth.", "anchors": ["packages/stylist-core/src/ast/context.rs: with_block_condition", "packages/stylist-core/src/ast/block.rs"]}
{"id": "C08", "title": "The class name is a parameter of the text", "statement": "There is one template per sheet such that, for every class name without '.', ':' and ',' that the selectors and conditions of the sheet do not mention, the scoped rendering is the template with its holes filled by '.' and the class name. So two renderings of a sheet differ only in the class name, and the structure of the text does not depend on it.", "quantifier": "every sheet, all class names free of '.', ':' and ',' and not mentioned in the sheet", "why_tests_cant": "Universally quantified over pairs of renderings; the writer compares rendered conditions, so a coincidence of names could change the nesting.", "anchors": ["packages/stylist-core/src/ast/selector.rs", "packages/stylist-core/src/ast/context.rs", "packages/stylist/src/manager/mod.rs: get_or_register_style"]}
{"id": "C09", "title": "Rendering is compositional", "statement": "Rendering the concatenation of two sheets gives the concatenation of their renderings: no state leaks from one top-level item to the next, so the text of an item does not depend on its neighbours.", "quantifier": "all pairs of sheets, every class name", "why_tests_cant": "Interior-mutable open flags are shared through the root context; absence of leaks is a property of all histories.", "anchors": ["packages/stylist-core/src/ast/sheet.rs: Sheet::write_style", "packages/stylist-core/src/ast/context.rs: is_open"]}
{"id": "C10", "title": "At-rule conditions are printed verbatim", "statement": "The condition of an at-rule is printed exactly as written (concatenation of its fragments), never scoped; in particular @keyframes names do not depend on the class name.", "quantifier": "every rule and class name", "why_tests_cant": "Arbitrary text and nesting.", "anchors": ["packages/stylist-core/src/ast/rule.rs"]}
{"id": "C11", "title": "Parsing terminates on every input", "statement": "Parsing any string finishes: recursion depth is bounded by the length of the input, so the result does not depend on any recursion budget larger than that.", "quantifier": "every input string", "why_tests_cant": "Non-termination on some input cannot be excluded by running samples.", "anchors": ["packages/stylist-core/src/parser.rs: Parser::sheet, scope_contents, rule_block, at_rule, keyframes"]}
{"id": "C12", "title": "No text is silently ignored", "statement": "When parsing succeeds the whole input was consumed: although the code discards the unparsed remainder, that remainder is always empty.", "quantifier": "every input string on which Sheet::from_str succeeds", "why_tests_cant": "Needs every input; the code pattern Ok((_, res)) => Ok(res) discards the rest, so tests on valid input cannot see truncation.", "anchors": ["packages/stylist-core/src/parser.rs: Parser::parse, Parser::sheet, scope, scope_contents"]}
{"id": "C13", "title": "Leading white space and comments are irrelevant", "statement": "Prefixing the input with any sequence of blanks, tabs, newlines and closed comments does not change the result of parsing, success or failure.", "quantifier": "every input string, every sequence of white space and comments", "why_tests_cant": "Unbounded choice of comments and inputs.", "anchors": ["packages/stylist-core/src/parser.rs: sp, cmt, trimmed, sheet"]}
{"id": "C14", "title": "Shape of parsed sheets", "statement": "Every sheet the parser returns satisfies: declaration keys are identifiers stripped of surrounding (possibly non-ASCII) white space, every declaration has exactly one value fragment with no surrounding white space; blocks contain only declarations and at-rules, never blocks; an at-rule's condition starts with @media, @supports or @container followed by a space (also @keyframes at the top or directly in at-rules); the selectors of a non-dangling block are a non-empty list; a dangling block has at least one declaration.", "quantifier": "every input string that parses", "why_tests_cant": "Universal over accepted inputs.", "anchors": ["packages/stylist-core/src/parser.rs: attribute, block_contents, rule_block_contents, at_rule_condition, dangling_block, condition"]}
{"id": "C15", "title": "Printing then parsing preserves the meaning of a style", "statement": "For every lexically clean sheet (identifier keys, non-empty trimmed values/selectors/conditions without structural characters) and every identifier-like class name, the generated text parses, and the parsed sheet denotes exactly the same declarations under the same conditions, and renders, as it stands, to the very same text. Hence the debug-mode re-parse performed when a style is created does not panic for such sheets.", "quantifier": "every lexically clean sheet of parser shape, of any size; every identifier-like class name; scoped and global", "why_tests_cant": "Round trip over an infinite family.", "anchors": ["packages/stylist/src/manager/mod.rs: get_or_register_style (debug_parser)", "packages/stylist-core/src/parser.rs", "packages/stylist-core/src/ast/"]}
{"id": "C16", "title": "Whatever parses can be re-parsed after rendering", "statement": "If a style string is accepted by the parser then the style generated from it is accepted as well, so creating a Style from parsable css never panics in debug builds.", "quantifier": "every parsable input string", "why_tests_cant": "Universal over inputs; the counterexamples are rare lexical corner cases.", "anchors": ["packages/stylist/src/manager/mod.rs: get_or_register_style lines 171-176", "packages/stylist-core/src/parser.rs: style_attr_value"]}
{"id": "C17", "title": "The parse cache is transparent", "statement": "In any sequence of parse calls, from any threads, each call returns what parsing its argument afresh would return; failures are not cached and never poison later calls.", "quantifier": "every finite sequence (interleaving) of calls", "why_tests_cant": "History-dependent behaviour.", "anchors": ["packages/stylist-core/src/ast/sheet.rs: feat_parser::from_str, CACHED_SHEETS"]}
{"id": "C18", "title": "Double-quoted strings are opaque in values", "statement": "A declaration whose value is a double-quoted string (with backslash escapes) parses to exactly that key and value whatever characters the string contains, including ';', '{', '}', '/*' and '@'.", "quantifier": "every identifier key and every string body without unescaped double quote", "why_tests_cant": "Unbounded string contents.", "anchors": ["packages/stylist-core/src/parser.rs: string, style_attr_value"]}
{"id": "C19", "title": "Declarations keep their order and their number", "statement": "Parsing a text consisting of n declarations separated by ';' (with arbitrary blanks around keys and values) gives exactly those n declarations, in order, in one dangling block.", "quantifier": "every list of identifier keys and clean values, every placement of blanks", "why_tests_cant": "Unbounded number of declarations.", "anchors": ["packages/stylist-core/src/parser.rs: attributes, separated_list1, dangling_block"]}
{"id": "C20", "title": "Same css, same class", "statement": "Creating a style twice with the same manager, prefix, kind and sheet, with any operations in between that do not unregister that style, returns the same class name and style text and adds no second style element.", "quantifier": "every history of create / clone / drop / unregister / load operations on any number of managers", "why_tests_cant": "History-dependent.", "anchors": ["packages/stylist/src/manager/mod.rs: get_or_register_style", "packages/stylist/src/manager/registry.rs", "packages/stylist/src/manager/key.rs"]}
{"id": "C21", "title": "Different styles get different classes", "statement": "All styles ever created by the process carry pairwise distinct ids, across managers, prefixes and kinds (scoped and global), as long as fewer than 2^64 styles have been created or, with feature random, the strings drawn are different.", "quantifier": "every history with fewer than 2^64 creations, or different random strings; all prefixes", "why_tests_cant": "Unbounded histories and adversarial prefixes such as 'a-global'.", "anchors": ["packages/stylist/src/utils.rs: get_next_style_id, get_entropy", "packages/stylist/src/manager/key.rs: new_scoped, new_global"]}
{"id": "C22", "title": "A style element is in the DOM exactly while its style is alive", "statement": "In a browser, with containers inside the document and ids that are CSS identifiers, after every operation the style elements in the document are exactly those of the styles still referenced by a handle or a live manager's registry, one element each, carrying the style's id and text.", "quantifier": "every history of operations", "why_tests_cant": "Reference counting and drop order over all histories.", "anchors": ["packages/stylist/src/manager/content.rs: Drop for StyleContent", "packages/stylist/src/manager/mod.rs: mount, unmount, get_or_register_style", "packages/stylist/src/style.rs: unregister"]}
{"id": "C23", "title": "Unregistering unmounts after the last clone, not before", "statement": "After unregister, the element stays in the DOM while at least one clone of the style exists and disappears when the last one is dropped; without unregister, dropping all handles leaves the element mounted.", "quantifier": "every history, every number of clones", "why_tests_cant": "Depends on all orders of clone/drop/unregister.", "anchors": ["packages/stylist/src/style.rs: Style::unregister", "packages/stylist/src/global_style.rs: GlobalStyle::unregister", "packages/stylist/src/manager/content.rs"]}
{"id": "C24", "title": "A handle never changes", "statement": "The class name and style text seen through a Style or GlobalStyle handle never change as long as the handle exists, whatever other operations happen (including unregistering and re-creating the same css, and dropping its manager).", "quantifier": "every history of operations after the handle's creation", "why_tests_cant": "History-dependent.", "anchors": ["packages/stylist/src/style.rs: get_class_name, get_style_str", "packages/stylist/src/manager/content.rs"]}
{"id": "C25", "title": "Managers are isolated", "statement": "An operation on one manager leaves the registry, the server-side data and the container of every other manager unchanged, except for removals of elements of styles that lost their last reference.", "quantifier": "every operation in every reachable state", "why_tests_cant": "Universally quantified frame condition.", "anchors": ["packages/stylist/src/manager/mod.rs"]}
{"id": "C26", "title": "A failed mount leaves no trace", "statement": "If mounting the style element fails, creation returns an error, nothing is registered, no element is left behind, and other styles are unaffected; a later attempt behaves as a first one.", "quantifier": "every reachable state and every failing environment", "why_tests_cant": "Fault injection at every point of every history.", "anchors": ["packages/stylist/src/manager/mod.rs: get_or_register_style (self.mount(&content)?)"]}
{"id": "C27", "title": "Creating styles never panics on the registry", "statement": "The 'already been created' panic and RefCell double-borrow panics are unreachable from the public API.", "quantifier": "every history of operations", "why_tests_cant": "Absence of a panic over all histories, including destructors that run while the registry is borrowed.", "anchors": ["packages/stylist/src/manager/registry.rs: register", "packages/stylist/src/manager/mod.rs: get_or_register_style, unregister_style", "packages/stylist/src/manager/content.rs: drop"]}
{"id": "C28", "title": "Dropping a manager releases its styles", "statement": "When the last clone of a manager is dropped, every style of that manager without an outstanding handle is unmounted; styles with outstanding handles stay mounted and usable until dropped, and unregistering them is then a harmless no-op (no reference cycle keeps a manager alive).", "quantifier": "every history", "why_tests_cant": "Ownership over all histories.", "anchors": ["packages/stylist/src/manager/mod.rs: WeakStyleManager", "packages/stylist/src/manager/content.rs: manager()/unregister"]}
{"id": "C29", "title": "Style elements appear in creation order when appending", "statement": "With append(true) (the default) a new style element is added after all existing children of the container, so later styles win the cascade.", "quantifier": "every reachable state", "why_tests_cant": "Any history of insertions and removals.", "anchors": ["packages/stylist/src/manager/mod.rs: mount"]}
{"id": "C30", "title": "append(false) prepends", "statement": "With append(false) creating a style succeeds and its element becomes the first child of the container.", "quantifier": "every reachable state of a manager built with append(false)", "why_tests_cant": "Needs non-empty containers in every state; there is no test for it.", "anchors": ["packages/stylist/src/manager/mod.rs: mount lines 234-239", "packages/stylist/src/manager/mod.rs: StyleManagerBuilder::append"]}
{"id": "C31", "title": "Static rendering collects each style once and never touches the DOM", "statement": "A manager built with a static writer records, in creation order, one entry (key, id, text) per registration and adds no element to any container; reading returns exactly the entries recorded so far.", "quantifier": "every history with a static writer", "why_tests_cant": "History-dependent.", "anchors": ["packages/stylist/src/manager/ssr.rs", "packages/stylist/src/manager/mod.rs: get_or_register_style (ssr branch)"]}
{"id": "C32", "title": "Static markup is one style element per entry", "statement": "write_static_markup emits, for each entry in order, <style data-style=ID>, the escaped text and </style>, and nothing else; with an escaper that removes '</style' the number of '</style' in the markup equals the number of entries.", "quantifier": "every StyleData", "why_tests_cant": "Unbounded data and texts, including css that contains '</style>'.", "anchors": ["packages/stylist/src/manager/ssr.rs: write_static_markup"]}
{"id": "C33", "title": "Hydration reuses the server's classes", "statement": "After loading style data produced by a server-side manager (through serialization), creating any style recorded there with the same prefix, kind and sheet returns the class the server used and mounts no new element.", "quantifier": "every server history, every order of client creations", "why_tests_cant": "Cross-process history.", "anchors": ["packages/stylist/src/manager/mod.rs: load_style_data", "packages/stylist/src/yew/provider.rs"]}
{"id": "C34", "title": "Hydrated styles have the server's text", "statement": "The style text of a hydrated style equals the text the server generated for it, for scoped and global styles.", "quantifier": "every StyleData entry", "why_tests_cant": "Needs every entry; the existing code has no test for hydrated globals.", "anchors": ["packages/stylist/src/manager/mod.rs: load_style_data line 389"]}
{"id": "C35", "title": "Loading style data panics only on a real conflict", "statement": "load_style_data panics exactly when some entry's key is already registered (or occurs earlier in the data) under a different id; otherwise it registers all new keys, keeps existing ones, and loading the same data again changes nothing.", "quantifier": "every registry and every StyleData", "why_tests_cant": "All registries and data.", "anchors": ["packages/stylist/src/manager/mod.rs: load_style_data"]}
{"id": "C36", "title": "Style data survives serialization", "statement": "Deserializing a serialized StyleData gives the same keys and ids in the same order; only the generated text is dropped.", "quantifier": "every StyleData", "why_tests_cant": "Round trip over an infinite type.", "anchors": ["packages/stylist/src/manager/mod.rs: feat_ssr_hydration", "packages/stylist-core/src/bow.rs", "packages/stylist-core/src/ast/sheet.rs"]}
{"id": "C37", "title": "Style text is the rendering of the sheet under its own class", "statement": "For every style returned by creation in any reachable state, get_style_str is the rendering of its sheet with its own class name if scoped, and the global rendering if global.", "quantifier": "every history without hydration; with hydration for scoped styles", "why_tests_cant": "History-dependent.", "anchors": ["packages/stylist/src/manager/mod.rs: get_or_register_style"]}
{"id": "C38", "title": "Interpolation splitting is lossless", "statement": "Splitting a text into literal and ${name} fragments succeeds exactly on texts built from literal runs without '$' and '{', escapes '$${' and interpolations ${name}; the pieces put back together give the text (up to blanks inside ${ }), '$${' stands for '${'.", "quantifier": "every text; every list of fragments", "why_tests_cant": "Round trip over all fragment lists.", "anchors": ["packages/stylist-macros/src/literal/fstring.rs"]}
{"id": "C39", "title": "Literal macro substitutes exactly the named arguments", "statement": "Evaluating the sheet produced by the string-literal macro gives the sheet obtained by parsing the literal with, in every selector, value and condition, each ${name} replaced by the Display text of argument name and each '$${' by '${'; declaration keys are left alone.", "quantifier": "every literal, argument list and argument values", "why_tests_cant": "All literals and values.", "anchors": ["packages/stylist-macros/src/literal/to_output_with_args.rs", "packages/stylist-macros/src/literal/mod.rs", "packages/stylist-macros/src/output/"]}
{"id": "C40", "title": "Every argument must be given once and used", "statement": "The literal macro accepts exactly when the arguments are distinct, every interpolated name has an argument, and every argument is interpolated somewhere; otherwise it is a compile error.", "quantifier": "every literal and argument list", "why_tests_cant": "All combinations.", "anchors": ["packages/stylist-macros/src/literal/mod.rs: macro_fn", "packages/stylist-macros/src/literal/to_output_with_args.rs"]}
{"id": "C41", "title": "Coalescing string fragments does not change the text", "statement": "Merging successive literal fragments leaves the concatenated text unchanged for all values of the dynamic fragments and leaves no two adjacent literal fragments.", "quantifier": "every fragment list and valuation", "why_tests_cant": "Unbounded lists.", "anchors": ["packages/stylist-macros/src/output/str_frag.rs: fragment_coalesce", "packages/stylist-macros/src/output/selector.rs", "packages/stylist-macros/src/output/style_attr.rs", "packages/stylist-macros/src/output/rule.rs"]}
{"id": "C42", "title": "Static caching of macro sheets is sound", "statement": "A sheet expression is cached in a static only if no fragment or key of it depends on a run-time expression or argument; const contexts are only used for parts made of literals; a sheet made only of literals is always cached. Every list, boxed rule and key of the sheet that the macro makes is owned exactly if an expression occurs in it and borrowed from a constant otherwise.", "quantifier": "every output tree", "why_tests_cant": "Trees of any size.", "anchors": ["packages/stylist-macros/src/output/context.rs", "packages/stylist-macros/src/output/maybe_static.rs", "packages/stylist-macros/src/output/sheet.rs", "packages/stylist-macros/src/output/rule_block_content.rs", "packages/stylist-macros/src/output/cow_str.rs"]}
{"id": "C43", "title": "Literal macro without interpolation equals run-time parsing", "statement": "For a literal without '$' and '{' inside its texts, the style produced by the macro renders to the same text as parsing the literal at run time, for every class name.", "quantifier": "every such literal", "why_tests_cant": "All literals.", "anchors": ["packages/stylist-macros/src/literal/mod.rs", "packages/stylist-core/src/parser.rs"]}
{"id": "C44", "title": "Spacing iterator inserts exactly the requested separators", "statement": "Collecting spaced_with(f) yields the original items in order, with f(l, r) inserted between neighbours l and r exactly when it is Some, and nothing else.", "quantifier": "every item type, list and spacer function", "why_tests_cant": "Unbounded lists, all functions.", "anchors": ["packages/stylist-macros/src/spacing_iterator.rs"]}
{"id": "C45", "title": "Re-tokenizing Rust tokens into component values is lossless", "statement": "Parsing a Rust token stream into component values succeeds or fails with an error, terminates, and when it succeeds the component values print back to exactly the input tokens.", "quantifier": "every token tree stream", "why_tests_cant": "Trees of any depth.", "anchors": ["packages/stylist-macros/src/inline/component_value/mod.rs", "packages/stylist-macros/src/inline/css_ident.rs", "packages/stylist-macros/src/inline/component_value/"]}
{"id": "C46", "title": "Inline macro keeps all items in order", "statement": "The sheet emitted by the inline macro contains the declarations, blocks and at-rules of the input in input order, grouping each maximal run of loose declarations into one dangling block.", "quantifier": "every list of parsed items, any nesting", "why_tests_cant": "Unbounded lists and nesting.", "anchors": ["packages/stylist-macros/src/inline/parse/root.rs", "packages/stylist-macros/src/inline/parse/scope.rs", "packages/stylist-macros/src/inline/parse/block.rs"]}
{"id": "C47", "title": "The inline macro never hits its unreachable! branch", "statement": "Emitting the fragments of declaration values, selectors and at-rule preludes never reaches the 'braced blocks should not get reified' panic.", "quantifier": "every accepted token stream", "why_tests_cant": "All nestings of parentheses and braces.", "anchors": ["packages/stylist-macros/src/inline/component_value/mod.rs: to_output_fragments, validate_attribute_token, validate_selector_token", "packages/stylist-macros/src/inline/parse/rule.rs"]}
{"id": "C48", "title": "Invalid inline css is a compile error", "statement": "If any token of a declaration value or selector is rejected by validation, or an at-rule other than @media and @supports is used, or a block is nested in a block, then the macro expands to compile errors and not to a sheet.", "quantifier": "every input token stream that is parsed into items", "why_tests_cant": "Errors are collected through arbitrary nesting.", "anchors": ["packages/stylist-macros/src/inline/parse/mod.rs: IntoOutputContext", "packages/stylist-macros/src/inline/parse/scope.rs", "packages/stylist-macros/src/inline/parse/rule.rs", "packages/stylist-macros/src/inline/mod.rs"]}
{"id": "C49", "title": "A Global component's css is in the DOM exactly while mounted", "statement": "For any interleaving of mounting, re-rendering with new css and unmounting of any number of Global components, the css of each mounted one is in the DOM, and css used by none of them (and by nobody else) is not.", "quantifier": "every interleaving of component life cycles", "why_tests_cant": "Interleavings of shared registrations.", "anchors": ["packages/stylist/src/yew/global.rs"]}
{"id": "C50", "title": "Equal Global components share one element", "statement": "Two mounted Global components with equal css and manager share a single style element.", "quantifier": "every interleaving of component life cycles", "why_tests_cant": "Depends on interleaving of unregister and create.", "anchors": ["packages/stylist/src/yew/global.rs", "packages/stylist/src/manager/mod.rs: unregister_style"]}
{"id": "C51", "title": "Media query hook reports the current match", "statement": "After effects have run and change events were delivered, use_media_query returns whether the query given in the last render matches.", "quantifier": "every schedule of renders, query changes, effects and media changes", "why_tests_cant": "Schedules.", "anchors": ["packages/stylist/src/yew/hooks/use_media_query.rs: use_media_query"]}
{"id": "C52", "title": "Prepared media query hook reports the current match after effects", "statement": "use_prepared_media_query returns the prepared value on the first render after server rendering, and after effects have run and change events were delivered it returns whether the query given in the last render matches.", "quantifier": "every schedule of renders, query changes, effects and media changes", "why_tests_cant": "Schedules.", "anchors": ["packages/stylist/src/yew/hooks/use_media_query.rs: use_prepared_media_query"]}
{"id": "C53", "title": "Re-rendering a component does not change its class", "statement": "Calling use_style (or css! in a styled component) on every render with the same css and manager gives the same class every time and adds at most one element over the life of the manager, as long as nobody unregisters it.", "quantifier": "any number of renders of any number of components", "why_tests_cant": "Unbounded repetition.", "anchors": ["packages/stylist/src/yew/hooks/use_style.rs", "packages/stylist/src/style_src.rs: into_style"]}
{"id": "C54", "title": "Borrowed and boxed content are the same style", "statement": "Sheets that differ only in borrowed versus boxed or owned storage compare equal and are the same style for the manager, whether built by macros or parsed.", "quantifier": "all pairs of sheets", "why_tests_cant": "Representation independence over all trees.", "anchors": ["packages/stylist-core/src/bow.rs: PartialEq, Hash, Deref", "packages/stylist-core/src/ast/rule_block_content.rs", "packages/stylist/src/manager/key.rs"]}
{"id": "C55", "title": "Commas separate selectors only at the top level", "statement": "Parsing a block keeps commas that occur inside parentheses or brackets of a selector (as in ':not(.a, .b)') inside that selector.", "quantifier": "every selector text", "why_tests_cant": "All selector texts.", "anchors": ["packages/stylist-core/src/parser.rs: selector, condition"]}
{"id": "C56", "title": "Single-quoted strings are opaque in values", "statement": "A declaration whose value is a single-quoted string parses to exactly that key and value, whatever characters the string contains.", "quantifier": "every single-quoted string", "why_tests_cant": "Unbounded string contents.", "anchors": ["packages/stylist-core/src/parser.rs: string (TODO), style_attr_value"]}
{"id": "C57", "title": "New styles do not take the class of a hydrated style", "statement": "After a client has loaded the style data of a server, a style that was not in that data gets a class that differs from the classes of all loaded styles.", "quantifier": "every server history, every client history, every set of styles", "why_tests_cant": "Ids come from two processes; the collision depends on both histories.", "anchors": ["packages/stylist/src/utils.rs: get_entropy", "packages/stylist/src/manager/mod.rs: load_style_data", "packages/stylist/src/manager/key.rs: StyleId"]}
{"id": "C58", "title": "Style data recorded by a server always loads", "statement": "The style data read from a static manager can be loaded by a manager with the same prefix that has no styles yet, without a panic, whatever the server did before.", "quantifier": "every server history", "why_tests_cant": "All histories of creating and unregistering styles.", "anchors": ["packages/stylist/src/manager/ssr.rs: StaticReader, StaticWriter", "packages/stylist/src/manager/mod.rs: load_style_data, unregister"]}
{"id": "C59", "title": "Layout does not matter", "statement": "Css texts that differ only in the white space and comments between their parts, or in the semicolon after the last declaration of a block, are read as the same sheet, which is the one the text is written for, and so give the same style.", "quantifier": "every css text in every layout, and every state in which a style is created from it", "why_tests_cant": "All texts of a nested grammar, and all ways to lay them out.", "anchors": ["packages/stylist-core/src/parser.rs: trimmed, sp, cmt, block, block_contents, rule_block, rule_block_contents, scope_contents, at_rule, keyframes", "packages/stylist/src/style.rs: Style::create"]}
{"id": "C60", "title": "Declarations outside of blocks stay declarations", "statement": "Declarations at the start of a text or after a block apply to the element itself, in order, whatever rule follows them, and the rules that follow are read as without them.", "quantifier": "every list of declarations and every css text that follows", "why_tests_cant": "All texts; the parser has to decide where the declarations end by backtracking.", "anchors": ["packages/stylist-core/src/parser.rs: dangling_block, attributes, attribute"]}
{"id": "C61", "title": "The nearest provider decides", "statement": "In a Yew application, use_style and the css! of a styled component make exactly the style that Style::new_with_manager makes with the manager last given to the nearest provider above the component, or with the default manager if there is none; no other provider and no earlier manager has an influence, and they panic exactly if that call fails.", "quantifier": "every history of mounting, rendering and unmounting providers and of everything else, every place and every css", "why_tests_cant": "All histories of providers with changing managers, interleaved with arbitrary use of managers and styles.", "anchors": ["packages/stylist/src/yew/provider.rs: ManagerProvider", "packages/stylist/src/yew/hooks/use_style.rs: use_style", "packages/stylist/src/style_src.rs: StyleSource::into_style", "packages/stylist-macros/src/styled_component_impl.rs: macro_fn"]}
{"id": "C62", "title": "Children of a hydrated provider get the classes of the server", "statement": "If a provider is hydrated with the data of a server, css that the server used with the same prefix has the same class in the components below the provider, and nothing is added to the page for it, from the first render of the children on, and also after the provider was rendered again with the same or with another manager.", "quantifier": "every server history, every client history, every piece of css", "why_tests_cant": "Two processes, their whole histories, and the order of the provider's and the children's renders.", "anchors": ["packages/stylist/src/yew/provider.rs: ManagerProvider", "packages/stylist/src/manager/mod.rs: StyleManager::load_style_data"]}
{"id": "C63", "title": "Hydrating a provider does not panic", "statement": "Mounting a provider with the style data of a server succeeds, whatever the server and the client did before.", "quantifier": "every server history and every client history", "why_tests_cant": "All histories of both processes.", "anchors": ["packages/stylist/src/yew/provider.rs: ManagerProvider", "packages/stylist/src/manager/mod.rs: StyleManager::load_style_data"]}
{"id": "C64", "title": "One default manager per thread", "statement": "The first use of the default manager makes it; from then on every use, by StyleManager::default(), by use_style or css! outside of providers, refers to the same manager, whatever is dropped or unmounted. With it, and with any manager shared by several places, the same css gives the same class at every place and time, without another change of the page, unless the style is unregistered.", "quantifier": "every history, every two places with the same manager, every css", "why_tests_cant": "All histories between the two uses.", "anchors": ["packages/stylist/src/manager/mod.rs: StyleManager::default", "packages/stylist/src/yew/hooks/use_style.rs: use_style", "packages/stylist/src/style_src.rs: StyleSource::into_style"]}
{"id": "C65", "title": "A class from css! stays styled", "statement": "The class that css! gives in a component (whose Style is dropped at once) has exactly one element with its css on the page as long as a provider with its manager is mounted, or for ever with the default manager, unless somebody unregisters the style.", "quantifier": "every history before and after, every css, every place", "why_tests_cant": "Lifetimes of handles in all histories.", "anchors": ["packages/stylist/src/yew/mod.rs: From<StyleSource> for Classes", "packages/stylist/src/style_src.rs: StyleSource::into_style", "packages/stylist/src/manager/content.rs: StyleContent"]}
{"id": "C66", "title": "Class names carry the prefix", "statement": "The class name of a style begins with its prefix (the one it was created with, or that of its manager) and a hyphen, followed by global- for a global style and by text from the source of entropy; if the prefix is a CSS identifier then so is the class name, both with the counter and with random letters and digits; besides, only a single dash gives identifiers, and the empty prefix if the style is global or the text from the source of entropy does not begin with a digit.", "quantifier": "every history in which no style data is loaded, every manager, prefix and css", "why_tests_cant": "All prefixes and all histories.", "anchors": ["packages/stylist/src/manager/key.rs: StyleId", "packages/stylist/src/style.rs: Style::new_with_manager, Style::create_with_manager", "packages/stylist/src/global_style.rs: GlobalStyle", "packages/stylist/src/utils.rs: get_entropy"]}
{"id": "C67", "title": "Threads do not disturb each other", "statement": "Managers live in threads, but the counter of class names and the data of static managers are shared. Under every schedule the calls of all threads behave like the same calls made one after the other in the order in which they end, except that the numbers in class names are handed out in the order in which calls begin: every result, the page of each manager and all style data are those of that sequential history. Calls of one thread keep their order. In particular two styles never share a class, style data read in any thread lists exactly the styles created so far by that manager, and no call panics because of another thread.", "quantifier": "every number of threads, every schedule of calls in them, including calls that are interrupted between taking a number and registering the style", "why_tests_cant": "All interleavings of any number of threads.", "anchors": ["packages/stylist/src/utils.rs: get_entropy", "packages/stylist/src/manager/ssr.rs: StyleData, StaticReader", "packages/stylist/src/manager/mod.rs: StyleManager", "packages/stylist/src/style.rs: Style::create_with_manager"]}
{"id": "C68", "title": "A browser reads the declarations that were written", "statement": "A browser that reads the generated text of a sheet character by character, with strings, comments, escapes and nested braces, finds exactly the declarations of the sheet, in order, each under the at-rules and the selector that belong to it for the class; no declaration is swallowed, cut or moved into another block.", "quantifier": "every sheet whose texts are whole (no unclosed string, comment or bracket, no stray brace or semicolon), every class name, or none", "why_tests_cant": "All sheets and all texts in them; the reader is independent of the generator.", "anchors": ["packages/stylist-core/src/ast/sheet.rs: Sheet", "packages/stylist-core/src/ast/block.rs: Block", "packages/stylist-core/src/ast/rule.rs: Rule", "packages/stylist-core/src/ast/style_attr.rs: StyleAttribute", "packages/stylist-core/src/ast/selector.rs: Selector", "packages/stylist-core/src/ast/context.rs: StyleContext"]}
{"id": "C69", "title": "From the css to the page", "statement": "A style made from css text, in whatever layout the text is written, in a page or on a server or by css! in a component, leads to exactly one style element for its class as long as the style is held (for a server: in the markup written from its data), and a browser reads this element as exactly the declarations written in the css, in order, each under its at-rules and its selector for that class.", "quantifier": "every css text in the layouts of C59 whose texts are whole, every history before and after, every manager in the page, every kind of style", "why_tests_cant": "All texts together with all histories; composes parser, rendering, managers, page and reader.", "anchors": ["packages/stylist-core/src/parser.rs: Parser", "packages/stylist-core/src/ast/sheet.rs: Sheet", "packages/stylist/src/style.rs: Style::create_with_manager", "packages/stylist/src/global_style.rs: GlobalStyle", "packages/stylist/src/manager/mod.rs: StyleManager", "packages/stylist/src/manager/content.rs: StyleContent", "packages/stylist/src/manager/ssr.rs: StyleData", "packages/stylist/src/yew/hooks/use_style.rs: use_style"]}
{"id": "C70", "title": "Selectors mean what they say", "statement": "In every document, a selector written in a scoped style matches exactly the elements it should: & and :root stand for the elements with the generated class; a selector without them is about the elements below such an element, or, if it begins with a pseudo-class or a combinator, about what it reaches from the element itself. A declaration applies to an element exactly if one of the selectors of its block matches it.", "quantifier": "every selector, class name, document and element, for every meaning of the simple selectors; every declaration of every sheet", "why_tests_cant": "All selectors and all documents.", "anchors": ["packages/stylist-core/src/ast/selector.rs: Selector", "packages/stylist-core/src/ast/block.rs: Block", "packages/stylist-core/src/ast/context.rs: StyleContext"]}
{"id": "C71", "title": "Scoped styles stay inside", "statement": "A declaration of a scoped style applies to no element outside: every element it applies to has the generated class or is below an element that has it, unless the css explicitly goes to siblings of the current element; on the page this holds for what a browser reads in the style's element.", "quantifier": "every sheet whose selectors do not go from the current element to its siblings, and in which & and :root stand on their own outside of strings and brackets, every class name, document and element", "why_tests_cant": "All sheets and all documents; a leak shows in documents no test has.", "anchors": ["packages/stylist-core/src/ast/selector.rs: Selector", "packages/stylist-core/src/ast/block.rs: Block", "packages/stylist-core/src/ast/sheet.rs: Sheet", "packages/stylist/src/style.rs: Style"]}
{"id": "C72", "title": "Interpolated values stay in their places", "statement": "Whatever values are interpolated into css by the macros, a browser reads the generated text as the declarations of the css that was written, as many and in the same order, with the same property names where none is interpolated, and with the values in the places where they were written; a value cannot add, remove or move declarations or escape the scope of the style.", "quantifier": "every macro call with a string literal, every sequence of evaluations, all values, every class name", "why_tests_cant": "All values at run time; only the kind of value tells what the text becomes.", "anchors": ["packages/stylist-macros/src/literal/to_output_with_args.rs: ToOutputWithArgs", "packages/stylist-macros/src/literal/fstring.rs: Fragment", "packages/stylist-macros/src/output/str_frag.rs: OutputFragment", "packages/stylist-core/src/ast/sheet.rs: Sheet", "packages/stylist/src/manager/mod.rs: StyleManager::get_or_register_style"]}
{"id": "C73", "title": "Inline css is read as it is written", "statement": "Css written inline in a macro call (as Rust tokens) is read by a browser as exactly the declarations that are written: in the same order, each with its name, the text of its component values, and the at-rules and selectors around it, scoped to the class of the style. Values of interpolated expressions appear in their places. This holds for each evaluation, if the tokens are plain and the values closed.", "quantifier": "All token sequences that the macros accept, all sequences of evaluations, all values of the expressions, all class names.", "why_tests_cant": "The nesting depth, the number of items and the values at run time are unbounded.", "anchors": ["packages/stylist-macros/src/inline/parse/root.rs: Root", "packages/stylist-macros/src/inline/component_value/mod.rs: to_output_fragments", "packages/stylist-macros/src/inline/parse/mod.rs: fragment_spacing", "packages/stylist-core/src/ast/sheet.rs: ToStyleStr for Sheet"]}
{"id": "C74", "title": "Inline css and the same css in a string agree", "statement": "A style made with inline css and one made from a string with the same css (the values of the expressions written in) have the same generated text.", "quantifier": "All css texts, their Rust tokens, all values of the expressions, all class names.", "why_tests_cant": "The two syntaxes have different parsers, and the texts are unbounded.", "anchors": ["packages/stylist-macros/src/inline/component_value/mod.rs: ComponentValue", "packages/stylist-macros/src/inline/parse/mod.rs: fragment_spacing", "packages/stylist-core/src/parser.rs: Parser::parse", "packages/stylist/src/macros.rs: Inline, Descendant Selectors"]}
{"id": "C75", "title": "Global selectors mean what they say", "statement": "In every document, a selector written in a global style matches exactly the elements that it matches in any style sheet, & standing for the root element. A declaration of a global style applies to an element exactly if one of the selectors of its block matches it; without a selector it applies to the root.", "quantifier": "every selector, document and element, for every meaning of the simple selectors; every declaration of every sheet", "why_tests_cant": "All selectors and all documents.", "anchors": ["packages/stylist-core/src/ast/selector.rs: Selector", "packages/stylist-core/src/ast/block.rs: Block", "packages/stylist-core/src/ast/context.rs: StyleContext", "packages/stylist/src/global_style.rs: GlobalStyle"]}
{"id": "C76", "title": "Errors name their cause", "statement": "Creating a style returns a parse error exactly if it is created from css text that does not parse, and then nothing changes; for css that parses it returns a web error exactly if the style does not exist yet, the manager puts styles on a page, and the browser refuses or the manager prepends to a container that is not empty (a debug build checks first that the generated text parses, and panics if not). Building a manager returns a web error exactly if it runs in a browser, is given no container and the document has no head. No other operation returns an error.", "quantifier": "every history of operations, every manager, style, css text or sheet, and every failure of the browser", "why_tests_cant": "which error is returned depends on the state the history led to (what is registered, what the container holds) and on faults of the browser that tests cannot inject at will", "anchors": ["packages/stylist-core/src/error.rs: Error", "packages/stylist/src/style.rs: Style::create, GlobalStyle::create", "packages/stylist/src/manager/mod.rs: StyleManager::get_or_register_style, mount, StyleManagerBuilder::build"]}
{"id": "C77", "title": "A style source remembers the manager of the place where it was written", "statement": "A source written with css! in a styled component keeps the manager that counted where and when it was written, also when it is cloned, passed on, or used after the provider got another manager or went. When it becomes a class, this is the class that Style::new_with_manager gives for its css with that manager; it panics exactly if that fails. A source made elsewhere uses the default manager. Two sources are equal exactly if the same css was written at places with the same manager. Given to use_style, a source is only its css and the place of use_style counts.", "quantifier": "every history of events of an application with any number of providers, sources, clones and managers, every css and every failure of the browser", "why_tests_cant": "where a source ends up, and what happened to the providers and managers in between, is arbitrary", "anchors": ["packages/stylist/src/style_src.rs: StyleSource, into_style, with_manager, PartialEq", "packages/stylist/src/yew/mod.rs: From<StyleSource> for Classes", "packages/stylist-macros/src/styled_component_impl.rs: styled_component_impl_impl", "packages/stylist/src/yew/hooks/use_style.rs: use_style", "packages/stylist/src/style.rs: Style::create_impl"]}
{"id": "C78", "title": "Blanks in inline css follow the documented rule", "statement": "In a style from a macro call with inline css, the generated values, selectors and conditions have a blank between two tokens exactly when the left one is a closing bracket, an identifier, a literal or `*`, and the right one is an identifier, a literal, `*` or `#`; there are none around interpolated expressions.", "quantifier": "for every macro call with inline css, all values of its expressions and every class", "why_tests_cant": "There are infinitely many token sequences; tests look at a few pairs of neighbours, and miss combinations at nested depths.", "anchors": ["packages/stylist-macros/src/inline/component_value/mod.rs: ComponentValue::to_output_fragment, maybe_whitespace", "packages/stylist-macros/src/spacing_iterator.rs: SpacedIterator", "packages/stylist/src/macros.rs: documentation"]}
{"id": "C79", "title": "Unquoted urls are read as they are written", "statement": "A declaration whose value is `url(...)` with an unquoted url is read as a single declaration with this value.", "quantifier": "for every property name and every unquoted url", "why_tests_cant": "Urls are arbitrary; tests use one or two of them, and none with the characters that break it.", "anchors": ["packages/stylist-core/src/parser.rs: Parser::style_attr_value, Parser::attributes"]}
{"id": "C80", "title": "Css that is broken or not supported is refused as a whole", "statement": "If css is well formed up to some place, and at that place there is an at-rule other than @media, @supports, @container and @keyframes, a block inside of a block, a block or an at-rule that is never closed, or a closing brace that closes nothing, then parsing it is an error, whatever stands in front of the place and behind it, and creating a style from it returns that error and changes nothing.", "quantifier": "all texts that are well laid out up to a place, all texts that are broken from there (any nesting of open at-rules and blocks), every state a program can reach, every kind of style", "why_tests_cant": "the place may be at any depth and behind any amount of css, and what follows is arbitrary; a test tries a few broken texts", "anchors": ["packages/stylist-core/src/parser.rs: Parser::at_rule, Parser::at_rule_condition, Parser::scope, Parser::parse", "packages/stylist-core/src/ast/sheet.rs: Sheet"]}
{"id": "C81", "title": "Interpolated expressions run once each, in the order written", "statement": "Each time a macro call with inline css is evaluated, the expressions of all its `${...}` are evaluated exactly once, in the order in which they are written, and evaluation stops at the first that does not give a value; the text of the i-th value stands in the i-th place of the sheet.", "quantifier": "all accepted inline css, all expressions with any effects on the state of the program (including panics and early returns), any number of evaluations of the same call", "why_tests_cant": "an expression may do anything and may be anywhere in the css, and generated code is nested and partly hoisted into statics; a test sees the order for one sheet", "anchors": ["packages/stylist-macros/src/output/sheet.rs: OutputSheet::into_token_stream", "packages/stylist-macros/src/output/cow_str.rs: OutputCowString", "packages/stylist-macros/src/output/maybe_static.rs: IntoCowVecTokens", "packages/stylist-macros/src/output/style_attr.rs: OutputAttribute", "packages/stylist-macros/src/output/rule.rs: OutputRule", "packages/stylist-macros/src/output/block.rs: OutputBlock", "packages/stylist-macros/src/output/selector.rs: OutputSelector"]}
{"id": "C82", "title": "Arguments of a macro with a string literal are evaluated once", "statement": "Each time a macro call with a string literal is evaluated, every named argument is evaluated exactly once, in the order in which the arguments are given, as for `format!`.", "quantifier": "all accepted macro calls with a string literal, all argument expressions with any effects", "why_tests_cant": "an argument may have any effect and may be used any number of times and in any order; tests use arguments without effects", "anchors": ["packages/stylist-macros/src/literal/to_output_with_args.rs: ToOutputWithArgs", "packages/stylist-macros/src/literal/mod.rs: macro_fn", "packages/stylist/src/macros.rs: style, css (documentation)"]}
{"id": "C83", "title": "Interpolated expressions mean what they mean in the surrounding code", "statement": "An expression in `${...}`, or an argument of a macro with a string literal, is evaluated in the surrounding context: the names in it mean what they mean around the macro call.", "quantifier": "all accepted macro calls and all expressions that depend on names only through those that occur in them", "why_tests_cant": "expressions may mention any name, and those that the emitted code imports are not used in tests", "anchors": ["packages/stylist-macros/src/output/sheet.rs: OutputSheet::into_token_stream", "packages/stylist-macros/src/output/maybe_static.rs: IntoCowVecTokens", "packages/stylist/src/macros.rs: style, css (documentation)"]}
{"id": "C84", "title": "Parsing takes polynomial time", "statement": "Reading a css text takes a number of steps that is at most a constant times the cube of its length, whether the text is accepted or refused: neither nesting nor an error makes the parser read the same text again and again.", "quantifier": "every css text, of any length, nesting and brokenness", "why_tests_cant": "Exponential backtracking shows only for the nesting that triggers it; a test sees a few texts.", "anchors": ["packages/stylist-core/src/parser.rs: Parser::parse, Parser::sheet, Parser::scope_contents, Parser::block, Parser::rule_block, Parser::at_rule, Parser::keyframes, Parser::attributes"]}
{"id": "C85", "title": "A parse error says where the css stops making sense", "statement": "The error for css that is not accepted names one place of the text. Everything in front of the place is css by the documented grammar; at the place there is no blank, and no complete block or at-rule begins there. The message gives the number of the line of the place, the text of that line, and a caret under the place (counted in bytes). When the text is well formed up to a broken thing, the place is the beginning of that thing. An error inside of a block is reported at the beginning of the outermost block or at-rule.", "quantifier": "every css text that is refused; every well laid out text followed by any broken thing", "why_tests_cant": "A test fixes one text and one message; the place depends on everything in front of it and on where each alternative of the parser gives up.", "anchors": ["packages/stylist-core/src/parser.rs: Parser::parse", "packages/stylist-core/src/parser.rs: Parser::sheet", "packages/stylist-core/src/error.rs: Error::Parse"]}
{"id": "C86", "title": "From a macro call to the page", "statement": "A style made by style!, global_style!, css! or use_style! from inline css with plain values, or from a string literal with closed values, leads to exactly one style element for its class as long as the style is held (in a component: as long as its manager is provided; on a server: in the markup), and a browser reads this element as exactly the declarations written in the call with the values put in.", "quantifier": "every macro call, every evaluation of it with such values, every history before and after, every manager in the page, every kind of style", "why_tests_cant": "All token streams together with all values and all histories; composes macro expansion, evaluation, rendering, managers, page and reader.", "anchors": ["packages/stylist-macros/src/inline/mod.rs: macro_fn", "packages/stylist-macros/src/literal/mod.rs: macro_fn", "packages/stylist-macros/src/style.rs: macro_fn", "packages/stylist-macros/src/global_style.rs: macro_fn", "packages/stylist-macros/src/css.rs: macro_fn", "packages/stylist-macros/src/use_style.rs: macro_fn", "packages/stylist/src/style.rs: Style::create_with_manager", "packages/stylist/src/manager/content.rs: StyleContent", "packages/stylist/src/yew/hooks/use_style.rs: use_style"]}
{"id": "C87", "title": "Css texts can be put together", "statement": "If two css texts are accepted, the text made of one after the other is accepted, and its declarations and animations are those of the first followed by those of the second, for every class.", "quantifier": "every two css texts in the layouts of C59, every class name and global styles", "why_tests_cant": "All pairs of texts; what stands at the seam decides how both are read.", "anchors": ["packages/stylist-core/src/parser.rs: Parser::sheet", "packages/stylist-core/src/parser.rs: Parser::scope_contents", "packages/stylist-core/src/parser.rs: Parser::dangling_block"]}
{"id": "C88", "title": "All mistakes in inline css are reported at once", "statement": "If the tokens of a macro call with inline css split into declarations, at-rules and blocks, the compile errors are exactly the mistakes in them, in the order in which they are written, each with the token or name that is wrong: what is not allowed in a value or in a selector, at-rules that are not supported, and blocks in blocks. One mistake does not hide another. Otherwise there is one error, at the place where the tokens no longer split.", "quantifier": "every input token stream and every oracle for expressions", "why_tests_cant": "Mistakes are collected through arbitrary nesting, in values, in function arguments, in brackets and in at-rules; the order of the parser and of the output decide the order of the errors.", "anchors": ["packages/stylist-macros/src/inline/component_value/mod.rs: ComponentValue::validate_attribute_token", "packages/stylist-macros/src/inline/component_value/mod.rs: ComponentValue::validate_selector_token", "packages/stylist-macros/src/inline/parse/mod.rs: IntoOutputContext", "packages/stylist-macros/src/inline/parse/attribute.rs: CssAttributeValue", "packages/stylist-macros/src/inline/parse/qualifier.rs: CssBlockQualifier", "packages/stylist-macros/src/inline/parse/scope.rs: CssScope", "packages/stylist-macros/src/inline/mod.rs: macro_fn"]}
{"id": "C89", "title": "The page holds exactly the living styles, in order of creation", "statement": "In every reachable state of an application in a browser, the style elements in each container are, one for one and in the order of creation, those of the styles of that container that are alive. A browser that reads the container therefore finds the declarations of these styles one after the other, each under the class of its style (or under the selectors of a global style), so that of two styles with equal specificity the one made later wins.", "quantifier": "all environments with ids that differ (a counter that has not wrapped or different random strings), all pages without style elements, all histories of operations (creating, cloning, unregistering, dropping, other changes of the page) on any number of managers, all containers in the document", "why_tests_cant": "The set and the order of all elements is a property of whole histories: one style removed in the wrong place or appended twice shows only for some interleavings of managers, handles and registries.", "anchors": ["packages/stylist/src/manager/mod.rs: StyleManager::mount, StyleManager::unmount", "packages/stylist/src/manager/content.rs: StyleContent, Drop for StyleContent"]}
{"id": "C90", "title": "The compile error of a macro with a string literal says what is wrong", "statement": "A call of css!, style!, global_style! or sheet! whose first token is a literal (or which is empty) ends with a compile error exactly if there is a mistake in it, and the error is the one for the first mistake in this order: the first token; the css, with the report of the parser; the list of arguments from left to right, with the token or name at which it is wrong (no comma, no name, no equals sign, a name given twice); the texts of the css from left to right (a text that cannot be split, a name that is no argument); an argument that no text mentions, with its name. Otherwise there is code.", "quantifier": "all token streams, all css texts, all lists of arguments, all orders in which a HashMap may give its entries", "why_tests_cant": "The error depends on the first of many possible mistakes at arbitrary places of the css and of the argument list; tests fix one mistake per call and never two.", "anchors": ["packages/stylist-macros/src/literal/mod.rs: macro_fn", "packages/stylist-macros/src/literal/to_output_with_args.rs: ToOutputWithArgs", "packages/stylist-macros/src/literal/fstring.rs: Parser::parse"]}
{"id": "C91", "title": "The declaration that should win the cascade wins", "statement": "For every element and property, among the declarations of the living styles on a page, the one a browser lets win is the one the styles say: important declarations first, then the most specific selector, then the later declaration. The current element (& or :root) is as specific as one class, a selector that does not mention it gets exactly one class in front, selectors of global styles get nothing, so printing changes no decision within a style or between styles. Among equals, the style created later wins.", "quantifier": "all sheets whose texts are whole and whose selectors are those of C70 and C75, all histories of an application, all documents and elements, all weights of simple selectors, all at-rules that hold, all notions of important values", "why_tests_cant": "The winner depends on all pairs of declarations that apply to an element and on the whole history of created and dropped styles; tests look at the text of one style.", "anchors": ["packages/stylist-core/src/ast/selector.rs: Selector::write_style", "packages/stylist-core/src/ast/block.rs: Block::write_style", "packages/stylist-core/src/ast/sheet.rs: Sheet::write_style", "packages/stylist/src/manager/mod.rs: StyleManager::mount", "packages/stylist/src/style.rs: Style::create_with_manager"]}
{"id": "C92", "title": "A hydrated page is the server's page without the dropped styles, and then the new styles", "statement": "When a client takes over a page with the markup and the style data of a server, then in every state after that the style elements of the container are the server's, in the order in which the server created the styles, without those of styles that the client has dropped, followed by those of the living styles the client created, in their order. No style is there twice, in spite of the client making the server's styles again. A browser reads the declarations of these styles one after the other and decides the cascade as they say.", "quantifier": "all histories of the server and of the client, all pages, all containers, all prefixes that are css identifiers, all escapers of the markup, all random ids", "why_tests_cant": "It is about two processes, each with an arbitrary history, and about the order of all elements; tests load data and look at one style.", "anchors": ["packages/stylist/src/manager/mod.rs: StyleManager::load_style_data", "packages/stylist/src/manager/mod.rs: StyleManager::mount", "packages/stylist/src/manager/mod.rs: StyleManager::unmount", "packages/stylist/src/manager/ssr.rs: StyleData::write_static_markup", "packages/stylist/src/manager/content.rs: StyleContent"]}
{"id": "C93", "title": "A Global component takes over the style element that the server sent", "statement": "When an application loads the style data of a server, a global style of the server keeps its element until a Global component with that css goes: every Global that is mounted with this css meanwhile uses the element of the server and gets no element of its own. As long as any Global has it, the element stays; when a Global with the css was unmounted or changed and none is mounted any more, the element of the server is removed.", "quantifier": "all pages, all histories of mounting, rendering and unmounting Global components and of other operations before and after loading, all style data, all orders in which use_memo drops things", "why_tests_cant": "It is about every history of components on a page that another process made; the tests of Global do not load style data.", "anchors": ["packages/stylist/src/yew/global.rs: Global", "packages/stylist/src/manager/mod.rs: StyleManager::load_style_data", "packages/stylist/src/manager/mod.rs: StyleManager::unregister_style", "packages/stylist/src/manager/content.rs: StyleContent", "packages/stylist/src/global_style.rs: GlobalStyle"]}
{"id": "C94", "title": "The same css by a macro and as a string gives the same class", "statement": "The same css, written as the literal of css!, style! or global_style! and passed as a string at run time, is the same style: one manager gives both the same class and puts one style element on the page.", "quantifier": "all css texts without interpolation, all histories of operations without loading, both orders of the two calls, all kinds of styles and managers", "why_tests_cant": "It relates two programs (the macro and the run-time parser) on every text; the tests compare the texts of a few styles and not their classes.", "anchors": ["packages/stylist-macros/src/output/str_frag.rs: fragment_coalesce", "packages/stylist-macros/src/literal/to_output_with_args.rs: ToOutputWithArgs", "packages/stylist-core/src/parser.rs: Parser::parse", "packages/stylist/src/manager/key.rs: StyleKey", "packages/stylist/src/manager/mod.rs: StyleManager::get_or_register_style"]}
{"id": "C95", "title": "The stack the parser needs follows the nesting of css", "statement": "Parsing css of any length and with any number of blocks needs stack only for how deep its braces are nested, so only deeply nested css can abort the program; and any css within that bound is read as if there were no bound.", "quantifier": "all css texts, accepted or rejected, and all sizes of the stack", "why_tests_cant": "Whether a text exhausts the stack depends on the size of the stack of the thread; no number of texts shows that none of bounded nesting does, and no test shows that for every stack there is one that does.", "anchors": ["packages/stylist-core/src/parser.rs: Parser::rule_block", "packages/stylist-core/src/parser.rs: Parser::scope_contents", "packages/stylist-core/src/parser.rs: Parser::at_rule", "packages/stylist-core/src/parser.rs: Parser::keyframes", "packages/stylist-core/src/parser.rs: Parser::parse"]}
{"id": "C96", "title": "Exactly which values, selectors and conditions are read as they are written", "statement": "The value of a declaration, the selector of a block and the condition of an at-rule are read exactly as they are written if and only if the text is one of a small grammar of plain characters, double-quoted strings and placeholders; any other text is rejected or read as something else.", "quantifier": "all texts of values, selectors and conditions without white space at their ends, with all keys and all contents of the block", "why_tests_cant": "Tests show some texts that are read and some that are not. Where the line runs, in both directions and for texts of any length, is a statement about all of them.", "anchors": ["packages/stylist-core/src/parser.rs: Parser::style_attr_value", "packages/stylist-core/src/parser.rs: Parser::selector", "packages/stylist-core/src/parser.rs: Parser::at_rule_condition", "packages/stylist-core/src/parser.rs: Parser::string", "packages/stylist-core/src/parser.rs: Parser::interpolation"]}
{"id": "C97", "title": "An element is styled by exactly the styles that it is given", "statement": "If styles and style sources are given to the elements of a page as classes, an element has the class of a style if and only if it was given that style, by any handle at any time before, or the user wrote that word. The browser applies the declarations of the style that stand outside of blocks to exactly these elements, and those of blocks with selectors that stay inside only to these elements and what is below them. Builds with source locations in the attribute style the same elements as builds without.", "quantifier": "all histories of operations, all lists of styles, sources and texts given to elements, all css in a readable layout, all trees of elements, both kinds of builds", "why_tests_cant": "A test renders one element with one class. That no other style of any history gets the same class, that the words of an attribute never run together or add a foreign class, and that this holds for each element of any page, is a statement about all of them.", "anchors": ["packages/stylist/src/yew/mod.rs: From<Style> for Classes", "packages/stylist/src/yew/mod.rs: From<StyleSource> for Classes", "packages/stylist/src/style_src.rs: StyleSource::get_caller_location", "packages/stylist/src/style.rs: Style::get_class_name", "packages/stylist/src/manager/key.rs: StyleId"]}
{"id": "C98", "title": "A style in a shadow root or a frame is there exactly while it is alive", "statement": "If a manager puts its styles into a shadow root or a frame, the style element of a style is in that container from its creation until the style is gone, and a Global component that is unmounted takes its css with it.", "quantifier": "all histories of operations on managers, styles, Global components and the page, all pages, all containers that the document does not reach", "why_tests_cant": "A test drops one style and looks into one container. That nothing is ever removed from such a container, by no history, and what is in it instead, is a statement about all histories.", "anchors": ["packages/stylist/src/manager/mod.rs: StyleManagerBuilder::container", "packages/stylist/src/manager/mod.rs: StyleManager::mount", "packages/stylist/src/manager/mod.rs: StyleManager::unmount", "packages/stylist/src/manager/content.rs: StyleContent::drop", "packages/stylist/src/yew/global.rs: Global"]}
{"id": "C99", "title": "A style gets the animations it defines", "statement": "If the css of a style defines an animation with @keyframes and uses it, elements with the class of the style are animated by the frames of that style, whatever other styles are alive.", "quantifier": "all histories of operations on managers and styles, all sheets whose texts are whole and whose @keyframes stand outside of blocks, all names of animations, all truth values of conditions", "why_tests_cant": "A test looks at one style with one animation. Whether another style, made later and anywhere in an application, takes the name away is a statement about all sets of living styles and all histories that lead to them.", "anchors": ["packages/stylist-core/src/ast/rule.rs: Rule", "packages/stylist-core/src/ast/sheet.rs: Sheet::to_style_str", "packages/stylist-core/src/parser.rs: Parser::keyframes", "packages/stylist/src/manager/mod.rs: StyleManager::get_or_register_style", "packages/stylist/src/manager/mod.rs: StyleManager::mount"]}
{"id": "C100", "title": "A page of Global components shows their css in order", "statement": "In an application whose styles all come from mounted Global components with different css, the style elements of a page are those of the mounted components, one each, in the order in which the components were mounted or last given something else; a browser reads exactly their declarations in this order.", "quantifier": "all histories of mounting, rendering and unmounting any number of Global components under any number of managers, all orders in which Yew may drop what it keeps, all sheets", "why_tests_cant": "A test mounts a few components. That no history of renders leaves an element behind, loses one or changes the order of two is a statement about all histories, and the order decides which declaration wins.", "anchors": ["packages/stylist/src/yew/global.rs: Global", "packages/stylist/src/yew/global.rs: GlobalStyleGuard", "packages/stylist/src/global_style.rs: GlobalStyle::new_with_manager", "packages/stylist/src/global_style.rs: GlobalStyle::unregister", "packages/stylist/src/manager/mod.rs: StyleManager::mount", "packages/stylist/src/manager/content.rs: StyleContent"]}
{"id": "C101", "title": "The order of first uses determines page, classes and style data", "statement": "In an application that makes, clones and drops styles but never unregisters or loads any, the class of a style is its prefix with the number of styles asked for earlier in the process; the page has one style element for each style asked for, in the order of the first requests; and the style data of a server are the styles asked for under its manager in the same order. Nothing else in the history matters: not how often a style is asked for, nor when handles are dropped.", "quantifier": "all histories without unregister and load in which every request for valid css is fulfilled, any number of managers and styles, on browsers and servers", "why_tests_cant": "A test runs one history. That two histories which ask for the same styles in the same order give the same classes and the same page is a statement about pairs of arbitrary histories; server and client agree because of it.", "anchors": ["packages/stylist/src/style.rs: Style::new_with_manager", "packages/stylist/src/manager/mod.rs: StyleManager::get_or_register_style", "packages/stylist/src/manager/mod.rs: StyleManager::mount", "packages/stylist/src/manager/registry.rs: StyleRegistry", "packages/stylist/src/manager/ssr.rs: StaticReader::read_style_data", "packages/stylist/src/utils.rs: get_next_style_id"]}
{"id": "C102", "title": "Style data are read as written or not at all", "statement": "Deserializing style data gives a list of styles with their classes exactly if the value says these styles and classes in this order; everything else is an error. Nothing is skipped, guessed or changed, and a value never says two things.", "quantifier": "all values of the data model that style data are serialized to, whether or not this code wrote them", "why_tests_cant": "A test reads back what was written. That no value at all, with fields missing, repeated, in another order or with parts that nobody knows, is read as something else is a statement about all values.", "anchors": ["packages/stylist/src/manager/mod.rs: StyleData", "packages/stylist/src/manager/mod.rs: StyleDataContent", "packages/stylist/src/manager/key.rs: StyleKey", "packages/stylist-core/src/ast/sheet.rs: Sheet", "packages/stylist-core/src/bow.rs: Bow", "packages/stylist-core/src/ast/rule_block_content.rs: RuleBlockContent"]}
{"id": "C103", "title": "Exactly which css is accepted, and as what", "statement": "A text is accepted as css, and read as a particular sheet, exactly if a grammar says so that is read from left to right, in which values, selectors and conditions are as long as they can be and blanks and comments are skipped between the parts. Every other text is an error. A text is never read in two ways.", "quantifier": "all texts", "why_tests_cant": "A test tries texts somebody thought of. That there is no further text that is accepted, or one of the grammar that is not, or one that is read as something else, is a statement about all texts.", "anchors": ["packages/stylist-core/src/parser.rs: Parser::parse", "packages/stylist-core/src/parser.rs: Parser::sheet", "packages/stylist-core/src/parser.rs: Parser::scope_contents", "packages/stylist-core/src/parser.rs: Parser::attributes", "packages/stylist-core/src/parser.rs: Parser::condition", "packages/stylist-core/src/parser.rs: Parser::rule_block", "packages/stylist-core/src/parser.rs: Parser::keyframes"]}
{"id": "C104", "title": "Inline css passes the check of debug builds", "statement": "Css that a macro accepts as inline css can be used in a debug build: the text that the style is given can be parsed, and creating the style does not panic.", "quantifier": "all token trees of inline css, all values of the expressions, all classes, all histories of managers and styles, all prefixes", "why_tests_cant": "The check of debug builds parses the text that has been written, with a class and values that are known only when the program runs. A test shows that the check passes for the css of the test.", "anchors": ["packages/stylist/src/manager/mod.rs: StyleManager::get_or_register_style", "packages/stylist-core/src/ast/sheet.rs: Sheet", "packages/stylist-core/src/parser.rs: Parser::parse", "packages/stylist-macros/src/inline/mod.rs: macro_fn"]}
{"id": "C105", "title": "css! in a styled component uses its manager, wherever it is written", "statement": "In the body of a function with #[styled_component] every css! uses the manager that the component gets from its context: in nested blocks, closures, conditions and loops, whatever names the user's variables have, and in a component inside of a component that of the inner one. The attribute adds no variable that the user's code can see and changes the meaning of none, and code that compiles without it (with the imported css!) compiles with it.", "quantifier": "all code made of variables, css!, calls, blocks, closures, conditions, loops, let, functions with and without the attribute and macros css of the user", "why_tests_cant": "The user writes the code around css! and chooses the names; hygiene, the scope of macros and moves into closures depend on all of it. The tests in the repository have one component with one css! and one that uses the hidden name.", "anchors": ["packages/stylist-macros/src/styled_component_impl.rs: styled_component_impl_impl", "packages/stylist-macros/src/styled_component_impl.rs: HookLike", "packages/stylist-macros/src/styled_component.rs: styled_component_impl", "packages/stylist-macros/src/styled_component.rs: StyledComponentArgs"]}
{"id": "C106", "title": "The generated text is at most cubic in what was written", "statement": "The text that is generated for a sheet of size n (the characters of its texts and one for each declaration, block, at-rule and selector) with a class name of k characters has at most n\u00b2 headers and at most (k + 30)\u00b7n\u00b3 characters, and that for a css text of n characters at most (k + 30)\u00b7n\u00b3. There are sheets, at-rules with a declaration inside each other, whose texts do grow with the third power.", "quantifier": "every sheet of any depth and width, every css text that parses, every class name without ':' or none; the lower bound for every depth and every class name", "why_tests_cant": "Whether nesting, reopened parents or substituted selectors can make the output blow up, exponentially say, is a statement about all sheets; a test sees the sizes of its few inputs.", "anchors": ["packages/stylist-core/src/ast/context.rs: StyleContext::start/finish", "packages/stylist-core/src/ast/selector.rs: Selector::write_style", "packages/stylist-core/src/ast/block.rs: Block::cond_str", "packages/stylist-core/src/ast/to_style_str.rs: ToStyleStr::to_style_str", "packages/stylist-core/src/parser.rs: Parser::parse"]}
{"id": "C107", "title": "What a panic or an error says", "statement": "use_style, a class from css! and Global panic exactly if the css is refused, the browser refuses the new element, or a debug build refuses the text it generated; the message is the fixed sentence of that place and the whole report of the error, and nothing but the page-wide counter of ids has changed afterwards. A string given to the css prop of Global panics with the report when the prop is made. The default manager panics exactly if it does not exist and cannot be made; only the first such panic names the cause.", "quantifier": "every history of a Yew application and of the managers, every place in the tree, every css text, sheet, kind of style and every answer of the browser", "why_tests_cant": "That there is no other reason to panic, at any point of any history, and that the words name the reason at hand, is a statement about all states; a test sees the panics it provokes.", "anchors": ["packages/stylist-core/src/error.rs: Error, ResultDisplay::unwrap_display/expect_display", "packages/stylist/src/yew/mod.rs: IntoPropValue<StyleSource>", "packages/stylist/src/yew/hooks/use_style.rs: use_style", "packages/stylist/src/yew/global.rs: Global", "packages/stylist/src/style_src.rs: StyleSource::into_style", "packages/stylist/src/manager/mod.rs: StyleManager::get_or_register_style, Default for StyleManager"]}
{"id": "C108", "title": "What the check of debug builds refuses", "statement": "In a debug build with the feature debug_parser, creating a style from properly written css panics exactly if an animation in it, at any depth, declares nothing; for scoped and global styles, with every prefix of name characters, in every state. A panic changes nothing but the next id, and a style that passes is created as in a release build.", "quantifier": "every history of managers and styles, every css in every layout with plain frames, every sheet that is clean but for empty animations, every kind of style, prefix and source of ids with name characters", "why_tests_cant": "The check runs on a text that the library generates under an id that no test chooses; that it refuses nothing else, and always refuses this, is a statement about all css, all ids and all histories (an earlier style with the same key skips the check).", "anchors": ["packages/stylist/src/manager/mod.rs: StyleManager::get_or_register_style", "packages/stylist-core/src/ast/sheet.rs: Sheet::to_style_str", "packages/stylist-core/src/parser.rs: Parser::parse"]}
{"id": "C109", "title": "The stack that rendering needs follows the nesting of the sheet", "statement": "Rendering a sheet uses at most two nested calls for each level of nesting, and one more, however long the sheet is; and at least one for each level. A smaller stack never changes the text: the program is aborted, or the text is the right one. Css that could be read in n nested calls can be rendered in 2n + 3.", "quantifier": "every sheet of any depth and length, every class, every size of the stack, every css text", "why_tests_cant": "How deep the stack becomes depends on which blocks are open at each moment, for all nestings; a test shows one sheet, and one that aborts ends the test.", "anchors": ["packages/stylist-core/src/ast/context.rs: StyleContext::open_parent", "packages/stylist-core/src/ast/context.rs: StyleContext::start", "packages/stylist-core/src/ast/rule.rs: Rule::write_style", "packages/stylist-core/src/ast/block.rs: Block::write_style", "packages/stylist-core/src/ast/sheet.rs: Sheet::write_style"]}
{"id": "C110", "title": "Rendering takes polynomial time", "statement": "A sheet of size n (characters, parts, selectors and fragments) is rendered under a class of k characters in at most 252 (k + 8)^3 (n + 1)^4 steps, however it is nested; what was read from n characters of css in at most 252 (k + 8)^3 (3n + 1)^4.", "quantifier": "every sheet, every class without a colon, every css text that parses", "why_tests_cant": "Opening a block closes others, and each of these compares conditions with those of all ancestors again and again: a chain that doubled the work at each level would show in no small test. A bound for all sheets is a proof by induction.", "anchors": ["packages/stylist-core/src/ast/context.rs: StyleContext", "packages/stylist-core/src/ast/rule.rs: Rule::write_style", "packages/stylist-core/src/ast/block.rs: Block::write_style", "packages/stylist-core/src/ast/selector.rs: Selector::write_style", "packages/stylist-core/src/ast/sheet.rs: Sheet::write_style"]}
{"id": "C111", "title": "Reference counting frees everything, and nothing too early", "statement": "A style is freed exactly when its last Style value and its last entry in a registry are gone, a manager exactly when its last StyleManager is gone, although each style refers to its manager and the manager to its styles. No count is ever lowered below 0. When every Style, GlobalStyle and StyleManager has been dropped, in whatever order, nothing is left: no style, no key, no manager, no style data except those of a writer or reader that is still there, and no style element that was mounted.", "quantifier": "every history of creations, clones, drops, unregistrations, loads, readings and failures on any number of managers, every page", "why_tests_cant": "A reference cycle, a missed or doubled drop shows only for some order of drops, with clones, failed mounts, loaded styles and managers that go before their styles; a leak shows in no result. That the counts are right after every history is an invariant.", "anchors": ["packages/stylist/src/style.rs: Style", "packages/stylist/src/global_style.rs: GlobalStyle", "packages/stylist/src/manager/content.rs: StyleContent", "packages/stylist/src/manager/registry.rs: StyleRegistry", "packages/stylist/src/manager/mod.rs: StyleManager", "packages/stylist/src/manager/mod.rs: WeakStyleManager", "packages/stylist/src/manager/ssr.rs: StaticReader"]}
{"id": "C112", "title": "Memory and page grow with the number of different styles, not of uses", "statement": "However often styles are asked for, the registries together never have more entries than there were different requests (manager, kind, prefix and css), the styles that exist are never more than the Style values of the program and the different requests together, and no container has more style elements than that. The parse cache never has more entries than there were different texts, in any schedule of threads. On the other hand, nothing is freed by dropping Style values alone: as long as the managers live and nothing is unregistered, there are as many styles as different requests, so css with values that keep changing fills memory and page without bound, and the parse cache is never emptied.", "quantifier": "every history of operations on any number of managers, every schedule of any number of threads that parse, every number of rounds", "why_tests_cant": "A leak shows in no result and only after many uses; tests run few of them. That the number is bounded by the different requests in every reachable state is an invariant with a counting argument.", "anchors": ["packages/stylist/src/manager/mod.rs: StyleManager::get_or_register_style", "packages/stylist/src/manager/registry.rs: StyleRegistry", "packages/stylist/src/style.rs: Style", "packages/stylist-core/src/ast/sheet.rs: Sheet::from_str"]}
{"id": "C113", "title": "Style data survive the compact format used for hydration", "statement": "ManagerProvider sends style data in a binary format that writes neither names nor types. The client reads the styles and classes that the server wrote, in the same order, also with 32 bits, as long as the data fit into its memory, and loading them is the same as loading the original. Bytes are read as styles and classes exactly if they begin with what is written for these; truncated data are always an error; two lists of styles are written as the same bytes exactly if they are the same, wherever the parts of the syntax trees are stored.", "quantifier": "all style data of any size and nesting, all texts, all byte sequences, every address size up to 64 bits", "why_tests_cant": "Without names in the data, a field or variant in another order on one side, a skipped field that is written, or a length of another size is read as something else without an error; tests decode what they encode for a few sheets. Injectivity and rejection range over all byte sequences and nested trees.", "anchors": ["packages/stylist/src/manager/mod.rs: StyleData", "packages/stylist/src/manager/key.rs: StyleKey", "packages/stylist/src/yew/provider.rs: ManagerProvider", "packages/stylist-core/src/ast/sheet.rs: Sheet", "packages/stylist-core/src/ast/rule_block_content.rs: RuleBlockContent", "packages/stylist-core/src/ast/scope_content.rs: ScopeContent", "packages/stylist-core/src/bow.rs: Bow"]}
{"id": "C114", "title": "Parsing in several threads never blocks for good", "statement": "Threads that parse style sheets share one cache behind a lock. Whatever the schedule, as long as a call is in progress some call can go on. The thread that the others wait for finishes within four steps of its own, without running into another call, and then the lock is free. Every call is answered exactly once, with what parsing its text gives. If no new calls are begun all of them end within five steps each; otherwise at most six steps are made for each finished call. A single thread has no promise: it may lose the race for the lock any number of times.", "quantifier": "all schedules of any number of threads with any texts, including the same text in several threads and texts that are rejected", "why_tests_cant": "A lock that is kept on one return path, or taken twice, shows only for the thread that comes next, in some schedules; tests run a few threads and do not decide which of them goes on.", "anchors": ["packages/stylist-core/src/ast/sheet.rs: impl FromStr for Sheet", "packages/stylist-core/src/ast/sheet.rs: CACHED_SHEETS"]}
{"id": "C115", "title": "A failing writer gets the beginning of the markup, and a cut page has whole styles", "statement": "write_static_markup gives any writer the markup in order and stops at the first error, which it returns; it returns Ok only if every write did, and then the writer was given all of the markup. A writer that keeps what it gets has the whole markup after Ok and a beginning of it after an error. Wherever the markup is cut, a browser finds exactly the first styles whose elements have arrived, each with its class and its whole text, then at most one more element with the class of the next style and a beginning of its text, and nothing else.", "quantifier": "all style data, all writers with any state and any pattern of failures, also those that take a part of a text when they fail, and every point at which the markup may be cut", "why_tests_cant": "The error of each write must be passed on, in each style at each of its five pieces; tests write to a String, which never fails. A page can be cut at any character, with any style data before it.", "anchors": ["packages/stylist/src/manager/ssr.rs: write_static_markup", "packages/stylist/src/manager/key.rs: StyleId"]}
{"id": "C116", "title": "Threads with locks and cache behave as one thread, and never block for good", "statement": "However the steps of any number of threads of a server are mixed, between the mutex of the parse cache, the counter of class names and the mutexes of style data: every finished call gave the result that it gives when the finished calls are made one after the other without locks and cache, and each thread's calls are in its order. Style data are never read half-written. No thread holds two mutexes, whoever holds one can go on, and so there is no deadlock: if no new calls begin, all calls end, after at most sixteen steps for each thread. No mutex of style data is ever poisoned, also if a creation panics.", "quantifier": "all schedules of any number of threads and any calls in them, with and without the check of generated texts, at every place where threads meet", "why_tests_cant": "Interleavings of many threads at many places cannot be enumerated; a deadlock, a poisoned mutex or a half-written entry needs a particular schedule, which a test does not control.", "anchors": ["packages/stylist-core/src/ast/sheet.rs: FromStr for Sheet", "packages/stylist/src/manager/mod.rs: StyleManager::get_or_register_style", "packages/stylist/src/manager/ssr.rs: StaticReader::read_style_data, StyleManager::style_data", "packages/stylist/src/style_src.rs: TryInto<StyleSource>", "packages/stylist/src/utils.rs: get_next_style_id"]}
{"id": "C117", "title": "A page has the styles of its own request, whatever other requests do", "statement": "A server answers any number of requests at once, each in a thread with its own static manager. The style data that are read for a request have exactly the styles that its thread got from its manager before, each once, in the order in which the thread got them first, with the text of their css under their class. This list follows from the calls of that thread alone. Classes in the data of different requests are different, and a browser reads the markup as exactly these styles. (As long as the thread itself neither unregisters styles nor loads data.)", "quantifier": "all schedules of any number of threads and any calls in them; all reads of style data in any thread; all css, prefixes and kinds", "why_tests_cant": "That nothing of one request gets into the page of another, and that nothing is missing, has to hold for all ways in which requests overlap, which tests do not control.", "anchors": ["packages/stylist/src/manager/mod.rs: StyleManager::get_or_register_style", "packages/stylist/src/manager/ssr.rs: render_static, StaticReader::read_style_data, StyleData::write_static_markup", "packages/stylist/src/utils.rs: get_next_style_id"]}
{"id": "C118", "title": "Random classes rarely coincide", "statement": "With feature random, the class of a style ends in eight random letters and digits, and is a css identifier if the prefix is. Of all the sequences of numbers that the generator can give, the part with which two of n styles get the same class is at most n(n-1)/2 out of 62^8. This holds for the styles of a process, in any history and any prefixes; for those of all threads of a process, in any schedule; and for the styles that a server and a client that loads its data have together. The number of sequences for which n calls return different strings is exactly 62^8 (62^8 - 1) ... (62^8 - n + 1).", "quantifier": "all numbers of calls n; all sequences of numbers of the generator; all histories, schedules, managers and prefixes; all servers and clients", "why_tests_cant": "A test sees one sequence of random numbers. How often classes coincide is a statement about all of them.", "anchors": ["packages/stylist/src/utils.rs: get_rand_str, get_entropy", "packages/stylist/src/manager/key.rs: StyleId::new_scoped, StyleId::new_global", "packages/stylist/src/manager/mod.rs: StyleManager::get_or_register_style, StyleManager::load_style_data"]}
{"id": "C119", "title": "The class a request renders is the class its page has and its browser gets", "statement": "A server answers many requests at once, each in a thread with a manager of its own that writes style data. A thread that neither unregisters styles nor loads data gets a style with a class. Whatever the other threads do, style data of this manager that are read later, in any thread, have this class with the css and the text of the style; a browser that reads the markup finds a style element with this class and text; and if the data are sent in the compact format and loaded by a manager without styles, loading does not panic and leaves the page alone, and asking for the same style afterwards, after anything but unregistering it, gives the same class, leaves the page alone and, if the style is not global, has the same text.", "quantifier": "all schedules of all threads before and after the style is made; all calls of other threads; all debug and release builds, ids and caches; all ways to store the data; all browsers, their histories before and after loading", "why_tests_cant": "It spans two processes and depends on the schedule of the threads of one and the history of the other; a test sees one of each.", "anchors": ["packages/stylist/src/manager/mod.rs: StyleManager::get_or_register_style, StyleManager::load_style_data", "packages/stylist/src/manager/ssr.rs: StaticReader::read_style_data, StyleData::write_static_markup", "packages/stylist/src/yew/provider.rs: ManagerProvider", "packages/stylist/src/style.rs: Style::get_class_name"]}
{"id": "C120", "title": "From the css of a request to what its browser applies, whatever other requests do", "statement": "A server answers many requests at once, each in a thread with a manager of its own that writes style data. A thread gets styles, from css as text or as sheets, and neither unregisters styles nor loads data; then its style data are read, in any thread, and written as markup. Whatever the other threads do, there is a class for each different style that the thread got, and these classes differ. Every time the thread got a style it was with this class. A browser that reads the markup finds one style element for each of these styles, in the order in which the thread got them first, with its class and its text, and no others. If the texts of the sheets are whole and escaping does not change them, the browser reads the declarations of these styles under their classes (for global styles under the root) in this order and nothing else, and between them decides as the styles say.", "quantifier": "all schedules of all threads; all calls of other threads; all css; all debug and release builds, all ids that differ; all pages that have the markup; all elements, properties and ways of matching and weighing selectors", "why_tests_cant": "What one request writes could depend on any other request, its css and its timing; a test sees a few schedules and a few texts.", "anchors": ["packages/stylist/src/manager/mod.rs: StyleManager::get_or_register_style", "packages/stylist/src/manager/ssr.rs: StaticReader::read_style_data, StyleData::write_static_markup", "packages/stylist/src/style.rs: Style::get_class_name", "packages/stylist-core/src/ast/sheet.rs: Sheet::from_str", "packages/stylist-core/src/ast/to_style_str.rs: ToStyleStr"]}
{"id": "C121", "title": "A manager is what its builder was told", "statement": "A manager is built with StyleManager::builder, some calls of prefix, container, append and writer in any order, and build. Only the last call of each kind counts. Building fails if and only if in a browser no container was told and the document has no head, and the page stays as it is. From then on, in every state and whatever other threads do, every value of the manager has the prefix that was told, or stylist, and the container that was told, or the head of the document in a browser. Without hydration its styles have a class of this prefix, unless a call gives another one. Outside of a browser, or with a writer, its styles do not change the page. With a writer a new style comes at the end of the style data of the writer that was told last, and into no others; without, in a browser, a new style is the last child of this container and nothing else changes, and if prepending was told this is so only when the container was empty (C30). A manager is never equal to one that was there before, however alike they were built, and a clone is equal to its original.", "quantifier": "all lists of calls; all histories before and after, with any number of managers, values and styles; all pages", "why_tests_cant": "A test builds a few managers with a few settings and looks at them once; here every order and repetition of settings and everything that happens later count.", "anchors": ["packages/stylist/src/manager/mod.rs: StyleManagerBuilder::{new, prefix, container, append, build}, StyleManager::{builder, prefix, container}, PartialEq for StyleManager", "packages/stylist/src/manager/ssr.rs: StyleManagerBuilder::writer", "packages/stylist/src/arch.rs: doc_head"]}
