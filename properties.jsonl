{"id": "C01", "title": "ASCII case mapping", "statement": "Lower-casing moves exactly the bytes A-Z to the byte 32 above and leaves every other byte alone; upper-casing is the mirror image; a byte is 'alphabetic' iff it is an ASCII letter; the two maps are mutually inverse on letters and idempotent.", "quantifier": "every byte", "why_tests_cant": "Spot checks on a few letters miss the boundary bytes (@ [ ` { and 0x80..0xff).", "anchors": ["src/util/compare.rs: myisupper, myislower, mytolower, mytoupper, ourisalpha"]}
{"id": "C02", "title": "Single-byte updates touch one byte", "statement": "After set(n)/reset(n)/flip(n) the membership test answers true/false/negated for n, and its answer for every other byte is what it was before.", "quantifier": "every byte set, every byte n, every other byte m", "why_tests_cant": "256 x 2^256 combinations; a mask error may only show for one word or one old content.", "anchors": ["src/util/bitfield.rs: BitField256::set, reset, flip, test", "src/util/charreach.rs: CharReach::{set, reset, flip, test}"]}
{"id": "C03", "title": "Whole-set operations", "statement": "set_all/reset_all/flip_all give membership true/false/negated for every byte; none()/any()/all() answer exactly 'no byte is a member' / 'some byte is' / 'every byte is'.", "quantifier": "every byte set", "why_tests_cant": "2^256 sets; a forgotten word shows only on some of them.", "anchors": ["src/util/bitfield.rs: BitField256::set_all, reset_all, flip_all, none, any, all"]}
{"id": "C04", "title": "Range insertion", "statement": "set_range(from, to) with from <= to adds exactly the bytes from..=to, keeps all earlier members, and never panics in either build profile; with from > to it panics.", "quantifier": "every byte set, every pair of bytes, both build profiles", "why_tests_cant": "32896 ranges times every prior content; the block-boundary arithmetic (partial head, full blocks, partial tail, to = 255) has many cases.", "anchors": ["src/util/bitfield.rs: BitField256::set_range", "src/util/charreach.rs: CharReach::{set_range, from_range, dot}", "src/util/ue2common.rs: round_up_n"]}
{"id": "C05", "title": "Population count", "statement": "count() is the number of member bytes.", "quantifier": "every byte set", "why_tests_cant": "2^256 sets.", "anchors": ["src/util/bitfield.rs: BitField256::count"]}
{"id": "C06", "title": "First and last member", "statement": "find_first()/find_last() return the least/greatest member, and None exactly for the empty set.", "quantifier": "every byte set", "why_tests_cant": "2^256 sets.", "anchors": ["src/util/bitfield.rs: BitField256::find_first, find_last"]}
{"id": "C07", "title": "Successor search and iteration", "statement": "find_next(b) returns the least member strictly greater than b, None if there is none; starting from find_first and following find_next visits every member exactly once in increasing order and terminates.", "quantifier": "every byte set, every byte b", "why_tests_cant": "The termination and completeness of an iteration over an arbitrary set is a property of all 2^256 sets.", "anchors": ["src/util/bitfield.rs: BitField256::find_first, find_next", "src/util/charreach.rs: is_alphabetic, Display::fmt (loops)"]}
{"id": "C08", "title": "Rank selection", "statement": "find_nth(n) returns the n-th smallest member (from zero), None iff there are at most n members, and none of its debug assertions can fire.", "quantifier": "every byte set, every n in 0..=255, both build profiles", "why_tests_cant": "2^256 x 256; the internal assertions hold for all inputs or they are crashes waiting to happen.", "anchors": ["src/util/bitfield.rs: BitField256::find_nth"]}
{"id": "C09", "title": "Boolean algebra and extensionality", "statement": "&, |, ^ and ! act pointwise on membership, the assigning forms agree with the plain ones, and two sets are equal iff they have the same members.", "quantifier": "every pair of byte sets, every byte", "why_tests_cant": "Quantifies over pairs of sets.", "anchors": ["src/util/bitfield.rs: BitField256::bitand, bitor, bitxor, not, PartialEq", "src/util/charreach.rs: CharReach operators"]}
{"id": "C10", "title": "Total order on byte sets", "statement": "The ordering on byte sets is reflexive, antisymmetric, transitive and total, and compares equal exactly for equal sets.", "quantifier": "every triple of byte sets", "why_tests_cant": "Order laws are universally quantified over triples.", "anchors": ["src/util/bitfield.rs: derive(Ord)", "src/util/charreach.rs: derive(Ord)"]}
{"id": "C11", "title": "Constructors of byte classes", "statement": "from_char(c) has exactly member c; from_bytes(bs) has exactly the bytes occurring in bs; dot() has every byte.", "quantifier": "every byte, every byte string of any length", "why_tests_cant": "Byte strings are unbounded.", "anchors": ["src/util/charreach.rs: from_char, from_bytes, dot"]}
{"id": "C12", "title": "Class predicates mean what they say", "statement": "is_alphabetic: non-empty and only letters; is_bit5_insensitive: closed under flipping bit 5; is_subset_of: inclusion; overlaps: common member; is_ascii: all members below 0x80; is_utf8_start: all members at least 0xc0. None of them panics.", "quantifier": "every byte class (pair)", "why_tests_cant": "2^256 classes.", "anchors": ["src/util/charreach.rs: is_alphabetic, is_bit5_insensitive, is_subset_of, overlaps, is_ascii, is_utf8_start"]}
{"id": "C13", "title": "Caseless pair recognition", "statement": "is_caseless_char() is true iff the class is exactly {U, l} for an ASCII letter in its two cases, and never panics.", "quantifier": "every byte class", "why_tests_cant": "2^256 classes; the expects in the code must be unreachable for all.", "anchors": ["src/util/charreach.rs: is_caseless_char"]}
{"id": "C14", "title": "Case closure", "statement": "make_caseless adds exactly the other-case partner of each letter present: the result is the least superset closed under case mapping; it is idempotent and monotone.", "quantifier": "every byte class", "why_tests_cant": "2^256 classes; a loop over 26 letters with in-place update.", "anchors": ["src/util/charreach.rs: make_caseless"]}
{"id": "C15", "title": "and/cmp mask", "statement": "Every member c of the class satisfies (c & and_mask) == cmp_mask, and and_mask has as many bits as possible: any (and, cmp) pair accepting all members of a non-empty class accepts everything the returned pair accepts.", "quantifier": "every byte class", "why_tests_cant": "Soundness and optimality quantify over all classes and all rival masks.", "anchors": ["src/util/charreach.rs: make_and_cmp_mask"]}
{"id": "C16", "title": "Bit-vector export", "statement": "fill_bitvector writes into the first 32 bytes the bitmap of the class (bit c%8 of byte c/8 set iff c is a member) and leaves the rest of the buffer alone; it panics only for buffers shorter than 32. [False of the code: it uses pos & 8.]", "quantifier": "every byte class, every buffer, both profiles", "why_tests_cant": "All classes and buffers.", "anchors": ["src/util/charreach.rs: fill_bitvector"]}
{"id": "C17", "title": "Display of a class", "statement": "The Display output of a class is its members as characters in increasing order; two classes display alike only if equal.", "quantifier": "every byte class", "why_tests_cant": "2^256 classes.", "anchors": ["src/util/charreach.rs: Display::fmt"]}
{"id": "C18", "title": "Rounding helpers", "statement": "round_up_n/round_down_n/round_up_16/round_down_16/round_up_cache_line return the least multiple at or above / greatest multiple at or below the argument. [False of the code for types wider than u8: the mask is complemented at 8 bits.]", "quantifier": "every value of every unsigned and signed width, every power-of-two n, both profiles", "why_tests_cant": "Widths and values are unbounded families.", "anchors": ["src/util/ue2common.rs: round_up_16, round_down_16, round_up_n, round_down_n, round_up_cache_line"]}
{"id": "C19", "title": "Depth conversion and order", "statement": "A length converts to a depth iff it is at most 2^31-2; conversion is injective and order-preserving; infinity is above every converted length; the minimum of two depths is the lesser.", "quantifier": "every u32/usize value", "why_tests_cant": "2^64 values.", "anchors": ["src/util/depth.rs: Depth, TryFrom, Ord", "src/nfagraph/ng.rs: add_literal"]}
{"id": "C20", "title": "Literals record what was pushed", "statement": "After any sequence of push(c, nocase) calls the literal has that many bytes, iterating yields the pushed pairs in order (bytes pushed nocase are upper-cased), and any_nocase is true iff some push was nocase.", "quantifier": "every sequence of push calls", "why_tests_cant": "Histories of unbounded length.", "anchors": ["src/util/ue2string.rs: Ue2Literal::{push, len, is_empty, any_nocase, iter}"]}
{"id": "C21", "title": "Mixed case sensitivity test", "statement": "mixed_sensitivity is true iff the literal has a letter that is case-sensitive and a letter that is not; non-letters do not matter, nor does order.", "quantifier": "every literal", "why_tests_cant": "Unbounded literals.", "anchors": ["src/util/ue2string.rs: mixed_sensitivity"]}
{"id": "C22", "title": "Literal order agrees with equality", "statement": "The literal ordering is a total order and a == b iff a.cmp(b) is Equal. [The second part is false of the code: == ignores case sensitivity.]", "quantifier": "every pair and triple of literals", "why_tests_cant": "Unbounded literals; laws over triples.", "anchors": ["src/util/ue2string.rs: PartialEq, Ord for Ue2Literal"]}
{"id": "C23", "title": "Internal report ids", "statement": "Across any history of requests, the id returned for a report is stable, two different reports never share an id, get_report inverts it, ids handed out are exactly 0..k-1 for k distinct reports, and a new report is refused with a resource-limit error exactly when the limit is reached. Requests panic exactly if the limit is above 2^32 and so is the number of different reports.", "quantifier": "every history of get_internal_id calls, every limit", "why_tests_cant": "Histories of unbounded length.", "anchors": ["src/util/report_manager.rs: get_internal_id, get_report"]}
{"id": "C24", "title": "Exhaustion keys", "statement": "Across any history, an external id always gets the same exhaustion key, different ids get different keys, and the keys are 0..k-1. Requests panic exactly if all 2^32 ids have keys before the last request, even if that is not for a new id.", "quantifier": "every history of get_exhaustible_key calls", "why_tests_cant": "Histories.", "anchors": ["src/util/report_manager.rs: get_exhaustible_key"]}
{"id": "C25", "title": "Match-id consistency", "statement": "Across any history of registrations, registration of an id fails iff an earlier successful registration of the same id had the other SINGLEMATCH setting; a failing call changes nothing; the database is globally exhaustible iff no non-SINGLEMATCH registration succeeded; the recorded first pattern index is that of the first registration.", "quantifier": "every history of register_ext_report calls", "why_tests_cant": "Histories.", "anchors": ["src/util/report_manager.rs: register_ext_report"]}
{"id": "C26", "title": "Error construction and display", "statement": "A fresh error has no expression index; attaching an index keeps kind and reason; the Display text is the reason, followed by ' in expression N' iff an index is present, and determines reason when the index is known.", "quantifier": "every kind, reason and index", "why_tests_cant": "All strings.", "anchors": ["src/util/compile_error.rs: CompileError::{new, with_index, set_expression_index}, Display"]}
{"id": "C27", "title": "Control verb classification", "statement": "A pattern is treated as starting with a control verb iff it is '(*' v ')' rest with v non-empty and free of ')'; UCP, UTF8, UTF are accepted and the rest of the pattern is what follows; the eleven known unsupported verbs and LIMIT_MATCH=.../LIMIT_RECURSION=... give 'Unsupported control verb v at index 2'; any other verb gives 'Unknown control verb v at index 2'; both with the located-parse kind.", "quantifier": "every pattern string, every mode", "why_tests_cant": "All strings.", "anchors": ["src/parser/control_verbs.rs: read_control_verbs, control_verb"]}
{"id": "C28", "title": "Control verb effects", "statement": "Reading a control verb changes nothing in the parse mode but ucp (for UCP) or utf8 (for UTF8, UTF), never clears a setting, and at most one verb is read.", "quantifier": "every pattern string, every mode", "why_tests_cant": "All strings.", "anchors": ["src/parser/control_verbs.rs: read_control_verbs", "src/parser.rs: parse"]}
{"id": "C29", "title": "Accepted patterns", "statement": "In release builds, an ASCII pattern body is accepted iff its parentheses are balanced (no prefix closes more than it opens, total equal).", "quantifier": "every ASCII pattern string", "why_tests_cant": "All strings.", "anchors": ["src/parser.rs: Context::{main, parse, push_sequence, pop_sequence}, parse"]}
{"id": "C30", "title": "Parse tree is the grammar's tree", "statement": "The tree returned for an accepted pattern is the one assigned by the grammar alt ::= seq ('|' seq)*, seq ::= item*, item ::= char | '(' alt ')': printing any grammar tree and parsing it gives that tree's components, and every accepted pattern is the print of exactly one grammar tree.", "quantifier": "every pattern string, every grammar tree of any depth", "why_tests_cant": "Unbounded nesting.", "anchors": ["src/parser.rs: Context::parse", "src/parser/component_sequence.rs: add_alternation, finalize, add_component"]}
{"id": "C31", "title": "Capture numbering", "statement": "In the tree of an accepted pattern the root is group 0, the k-th opening parenthesis (from 1) is group k, alternation branches are uncaptured, no sequence has a name, and numbers are consecutive in pre-order.", "quantifier": "every accepted pattern", "why_tests_cant": "All strings.", "anchors": ["src/parser.rs: Context::{new, push_sequence}"]}
{"id": "C32", "title": "Parse errors", "statement": "In release builds: an ASCII pattern body is rejected with 'Unmatched parentheses' iff some prefix has more ) than (; with 'Missing close parenthesis for group started at index i.' iff every prefix is fine but groups stay open, i being the byte offset of the innermost open group. [The index part is false of the code: the subtraction is reversed.]", "quantifier": "every ASCII pattern string", "why_tests_cant": "All strings.", "anchors": ["src/parser.rs: Context::{push_sequence, pop_sequence, parse}"]}
{"id": "C33", "title": "No panic on untrusted patterns", "statement": "parse never panics. [False of the code: non-ASCII characters, and in debug builds any '(' after offset 0.] Exact characterisation of when it panics.", "quantifier": "every pattern string, both profiles", "why_tests_cant": "All strings.", "anchors": ["src/parser.rs: Context::{main, push_sequence}"]}
{"id": "C34", "title": "Character class of a literal", "statement": "A literal ASCII character becomes the class of exactly that byte, or with CASELESS exactly that byte and its other-case partner.", "quantifier": "every character below 0x100, both case modes", "why_tests_cant": "Full-domain, composed with class operations.", "anchors": ["src/parser/component_class.rs: get_literal_component_class, ComponentClass::add", "src/parser/ascii_component_class.rs: AsciiComponentClass::add"]}
{"id": "C35", "title": "Only ( ) | are special", "statement": "Every other ASCII character stands for itself; of the flags only CASELESS (and the control verb) influences the tree.", "quantifier": "every pattern string, every flag value", "why_tests_cant": "All strings x flags.", "anchors": ["src/parser.rs: Context::main", "src/parser/parser_util.rs: ParseMode::new"]}
{"id": "C36", "title": "Tree walk", "statement": "Walking a parse tree calls pre before the children, visits children left to right with during called exactly once between each two neighbours, then post, exactly once per node, stops at the first pre error, and never trips the 'must be finalized' assertion on a tree produced by the parser.", "quantifier": "every parse tree, every visitor", "why_tests_cant": "Unbounded trees and arbitrary visitors.", "anchors": ["src/parser/component.rs: walk_component", "src/parser/component_sequence.rs: walk_component_sequence", "src/parser/component_alternation.rs: walk_component_alternation"]}
{"id": "C37", "title": "Literal recognition", "statement": "An expression takes the literal fast path iff it contains at least one literal character and no unescaped '|'; the literal is then the pattern with the parentheses removed, each byte upper-cased and marked nocase iff CASELESS is set and it is a letter.", "quantifier": "every accepted pattern, every flag value", "why_tests_cant": "All strings.", "anchors": ["src/parser/shortcut_literal.rs: shortcut_literal, ConstructLiteralVisitor"]}
{"id": "C38", "title": "Literal matches what the tree matches", "statement": "The set of byte strings matched by the extracted literal (nocase positions match either case) equals the language of the parse tree.", "quantifier": "every pattern on the literal path, every byte string", "why_tests_cant": "Language equality.", "anchors": ["src/parser/shortcut_literal.rs: ConstructLiteralVisitor", "src/util/ue2string.rs: Ue2Literal"]}
{"id": "C39", "title": "Extracted literals are never mixed", "statement": "A literal extracted from one parsed expression is never of mixed sensitivity, so the mixed-sensitivity bail-out never applies to it.", "quantifier": "every accepted pattern, every flag value", "why_tests_cant": "All strings.", "anchors": ["src/nfagraph/ng.rs: add_literal", "src/util/ue2string.rs: mixed_sensitivity"]}
{"id": "C40", "title": "Graph positions", "statement": "Building the graph of an expression adds exactly one vertex per literal character, in pattern order, whose reach is that character's class, after the four special vertices, whose reach is unchanged.", "quantifier": "every accepted pattern", "why_tests_cant": "All strings.", "anchors": ["src/compiler.rs: build_graph", "src/parser/ascii_component_class.rs: note_positions", "src/nfagraph/ng_holder.rs: NgHolder::new"]}
{"id": "C41", "title": "Graph recognises the pattern", "statement": "The NFA graph built for an expression accepts the pattern's language. [False of the code: no edges are added, so it accepts nothing.]", "quantifier": "every accepted pattern, every input", "why_tests_cant": "Language equality.", "anchors": ["src/compiler.rs: build_graph", "src/nfagraph/ng_holder.rs: NgHolder"]}
{"id": "C42", "title": "Edge filtering and wiring", "statement": "connect_regions records as successors of each last exactly the firsts that survive filtering (nothing NOFLOAT from start-dotstar, nothing at all from a NOFLOAT start-dotstar, nothing MUST_FLOAT|NOFLOAT from start; no accept-eod after a multiline start), accept being replaced by a fresh vertex. From start, epsilons that are not caret flavoured must be removed. [The last part is false of the code: it keeps the plain ones and removes the flagged ones.]", "quantifier": "every build state, every pair of lists", "why_tests_cant": "Unbounded lists and states.", "anchors": ["src/parser/build_state.rs: connect_regions, connect_successors, filter_edges"]}
{"id": "C43", "title": "Literal trie stores exactly the added literals", "statement": "After any history of insertions, following the bytes of a string from the root reaches a node iff the string is a prefix of an inserted literal, and that node's reports are exactly the reports inserted with that string.", "quantifier": "every history of add_to_trie calls, every byte string", "why_tests_cant": "Histories and strings unbounded.", "anchors": ["src/smallwrite/smallwrite_build.rs: add_to_trie, LitTrie"]}
{"id": "C44", "title": "Trie shape and size", "statement": "The trie is always a tree whose sibling edges carry different bytes; it has one node per distinct prefix of inserted literals; the insertion result says whether it has at most 8000 nodes; it is empty iff only empty literals were inserted.", "quantifier": "every history of insertions", "why_tests_cant": "Histories.", "anchors": ["src/smallwrite/smallwrite_build.rs: add_to_trie, LitTrie::is_empty, MAX_TRIE_VERTICES"]}
{"id": "C45", "title": "Small-write poisoning", "statement": "Once the small-write builder is poisoned nothing changes any more; it is poisoned from the start iff disabled or too many patterns; otherwise exactly by exceeding the literal limit or the trie limit; literals longer than the buffer limit are skipped without being counted.", "quantifier": "every history of add_literal calls, every limit setting", "why_tests_cant": "Histories.", "anchors": ["src/smallwrite/smallwrite_build.rs: SmallWriteBuild::{new, add_literal}"]}
{"id": "C46", "title": "Case separation", "statement": "Each literal added to the small-write builder goes to exactly one of the two tries: the caseless one iff some byte is nocase; the other trie is untouched.", "quantifier": "every builder state, every literal", "why_tests_cant": "All states.", "anchors": ["src/smallwrite/smallwrite_build.rs: SmallWriteBuild::add_literal"]}
{"id": "C47", "title": "Minimum width", "statement": "After compiling, the minimum width is the least number of bytes in which any of the patterns can match. [False of the code: patterns that are not plain literals are ignored.] For literal patterns it is the least literal length.", "quantifier": "every list of expressions", "why_tests_cant": "Unbounded lists.", "anchors": ["src/nfagraph/ng.rs: add_literal, add_graph"]}
{"id": "C48", "title": "Match ids stay distinguishable", "statement": "Two literals with different user-supplied ids get different internal reports. [False of the code: every callback report is equal.]", "quantifier": "every list of expressions with ids", "why_tests_cant": "Unbounded lists.", "anchors": ["src/util/report.rs: make_e_callback, make_som_relative_callback", "src/nfagraph/ng.rs: add_literal"]}
{"id": "C49", "title": "Error names the first bad expression", "statement": "If compile_multi reports an error for an expression, the attached index is the position of the first expression that cannot be added, and all earlier ones can.", "quantifier": "every list of expressions, flags, ids, every mode", "why_tests_cant": "Unbounded lists.", "anchors": ["src/lib.rs: compile_multi_int"]}
{"id": "C50", "title": "Every expression is checked", "statement": "compile_multi returns Ok only if every given expression is valid. [False of the code: with fewer flags or ids than expressions the excess expressions are silently dropped.]", "quantifier": "every list of expressions, flags, ids", "why_tests_cant": "Unbounded lists of unequal lengths.", "anchors": ["src/lib.rs: compile_multi_int"]}
{"id": "C51", "title": "Resource limits", "statement": "No expressions, more than the pattern-count limit, or a pattern over the length limit (in bytes) are refused with the documented error; the count checks come before any expression is looked at; within limits these errors never occur.", "quantifier": "every input, every limit setting", "why_tests_cant": "All inputs.", "anchors": ["src/lib.rs: compile_multi_int", "src/compiler.rs: add_expression", "src/grey.rs: Grey"]}
{"id": "C52", "title": "Mode of the database", "statement": "A successfully compiled database records the requested scanning mode. [The SOM horizon of a streaming mode is lost; exact characterisation.]", "quantifier": "every input, every mode", "why_tests_cant": "All inputs.", "anchors": ["src/rose/rose_build.rs: build_final_engine", "src/compiler.rs: build"]}
{"id": "C53", "title": "Engine selection", "statement": "The pure-literal engine is chosen exactly for resource sets with a floating table and nothing that disqualifies it; compiled databases always use the full engine, because resources are never recorded.", "quantifier": "every resource set, every context, every input", "why_tests_cant": "2^13 resource sets x inputs.", "anchors": ["src/rose/rose_build_bytecode.rs: is_pure_floating, pick_runtime_impl"]}
{"id": "C54", "title": "Scanning is total", "statement": "scan returns Ok for every database, data and scratch and leaves the scratch unchanged.", "quantifier": "every database, every byte string, every scratch", "why_tests_cant": "All data.", "anchors": ["src/runtime.rs: scan"]}
{"id": "C55", "title": "compile is compile_multi of one", "statement": "compile(e, f, m) gives exactly what compile_multi([e], [f], [0], m) gives.", "quantifier": "every expression, flags, mode", "why_tests_cant": "All inputs.", "anchors": ["src/lib.rs: compile, compile_multi"]}
{"id": "C56", "title": "QUIET with SOM_LEFTMOST", "statement": "An expression with both QUIET and SOM_LEFTMOST is refused with the documented error whatever the pattern (within the length limit); without both this error never occurs.", "quantifier": "every pattern, every flag value", "why_tests_cant": "All inputs.", "anchors": ["src/compiler.rs: ParsedExpression::new"]}
{"id": "C57", "title": "SINGLEMATCH conflicts are reported", "statement": "compile_multi returns an error when two expressions share an id but differ in SINGLEMATCH. [False of the code: debug builds panic instead, and expressions off the literal path are not checked.]", "quantifier": "every list of expressions", "why_tests_cant": "Unbounded lists.", "anchors": ["src/util/report_manager.rs: register_ext_report", "src/util/compile_error.rs: set_expression_index", "src/lib.rs: compile_multi_int"]}
{"id": "C58", "title": "Exact outcome of compile_multi", "statement": "For equal-length argument lists within limits, ASCII bodies and release builds: compile_multi succeeds iff every expression has no QUIET+SOM_LEFTMOST, an acceptable control verb, balanced parentheses, and no two literal expressions share an id with different SINGLEMATCH.", "quantifier": "every list of expressions, flags, ids, every mode", "why_tests_cant": "Unbounded lists; end-to-end.", "anchors": ["src/lib.rs: compile_multi_int", "src/compiler.rs: add_expression"]}
{"id": "C59", "title": "Character descriptions are unambiguous", "statement": "In text mode the description of a byte sequence, byte by byte, determines the sequence. Text: prefix-free code.", "quantifier": "every pair of byte strings", "why_tests_cant": "Unbounded strings.", "anchors": ["src/util/dump_charclass.rs: describe_char"]}
{"id": "C60", "title": "Range description terminates", "statement": "describe_range returns for all c1 <= c2. [False of the code: ends at 0xff with a short range: debug panic, release endless loop.] Exact characterisation.", "quantifier": "every pair of bytes, both profiles", "why_tests_cant": "Non-termination cannot be observed by a finite test.", "anchors": ["src/util/dump_charclass.rs: describe_range"]}
{"id": "C61", "title": "Class descriptions identify the class", "statement": "Different classes have different descriptions. [False of the code: the last range is dropped.]", "quantifier": "every pair of byte classes", "why_tests_cant": "2^512 pairs.", "anchors": ["src/util/dump_charclass.rs: describe_class"]}
{"id": "C62", "title": "Tree dump", "statement": "Dumping the tree of an accepted pattern never panics in either profile and prints one header line per node, indented twice its depth, in pre-order.", "quantifier": "every accepted ASCII pattern", "why_tests_cant": "All strings.", "anchors": ["src/parser/dump.rs: dump_tree, DumpVisitor"]}
{"id": "C63", "title": "Mode predicates", "statement": "Streaming covers stream and vectored modes, vectored only vectored; SOM precision is 8/4/2 for the horizons, 8 for vectored and 0 otherwise.", "quantifier": "every mode", "why_tests_cant": "Small domain, stated for completeness of the configuration layer.", "anchors": ["src/lib.rs: Mode::{is_streaming, is_vectored, som_precision}"]}
{"id": "C64", "title": "Tree size", "statement": "The parse tree has at most 4n+1 nodes and depth at most 2n+2 for a pattern of n characters, so walks, dumps and graph building are linear and need stack linear in the pattern length.", "quantifier": "every accepted pattern", "why_tests_cant": "All strings.", "anchors": ["src/parser.rs: Context::parse"]}
{"id": "C65", "title": "Conflict message is truthful", "statement": "When registration of an id is refused, the message says which of the two expressions specified SINGLEMATCH. [False of the code: the statement about the previous expression is inverted.]", "quantifier": "every history of registrations", "why_tests_cant": "Histories.", "anchors": ["src/util/report_manager.rs: register_ext_report"]}
{"id": "C66", "title": "SOM_LEFTMOST and ALLOWEMPTY are honoured", "statement": "Requesting start of match changes the compiled database or its bookkeeping. [False of the code: the flags are never read beyond the QUIET check.]", "quantifier": "every expression, every flag value", "why_tests_cant": "Non-interference over all inputs.", "anchors": ["src/compiler.rs: ParsedExpression::new"]}
{"id": "C67", "title": "Compilation terminates", "statement": "compile_multi returns or panics on every input; its parse loop consumes one character per iteration.", "quantifier": "every input, both profiles", "why_tests_cant": "Termination.", "anchors": ["src/parser.rs: Context::parse", "src/lib.rs: compile_multi_int"]}
{"id": "C68", "title": "Small-write tries describe the compiled literals", "statement": "After a successful compile that did not poison the small-write builder, a byte string is accepted by the case-sensitive (caseless) trie iff some compiled expression is a case-sensitive (caseless) literal of at most 70 bytes with those (upper-cased) bytes.", "quantifier": "every list of expressions, flags, ids; every byte string", "why_tests_cant": "End-to-end refinement over unbounded lists.", "anchors": ["src/lib.rs: compile_multi_int", "src/nfagraph/ng.rs: add_literal", "src/smallwrite/smallwrite_build.rs: add_literal"]}
{"id": "C69", "title": "Exhaustion bookkeeping", "statement": "After compiling, the global-exhaust flag is set iff every expression is SINGLEMATCH; exhaustion keys are given to exactly the ids of SINGLEMATCH expressions, different ids getting different keys. [False of the code: expressions that are not plain literals are ignored.]", "quantifier": "every list of expressions, flags, ids, both profiles", "why_tests_cant": "Unbounded lists.", "anchors": ["src/util/report_manager.rs: register_ext_report, get_exhaustible_key, get_internal_id", "src/nfagraph/ng.rs: add_literal"]}
{"id": "C70", "title": "When describing a class fails", "statement": "describe_class fails (debug: panic, release: endless loop) exactly for classes of 2 to 254 bytes that end in a run of two to four bytes up to 0xff or whose complement does; every other class is described.", "quantifier": "every byte class, both output modes, both profiles", "why_tests_cant": "2^256 classes; non-termination.", "anchors": ["src/util/dump_charclass.rs: describe_class, describe_class_int, describe_range"]}
{"id": "C71", "title": "Text of a class description", "statement": "A class of 2 to 254 bytes that is described at all is described by its mnemonics (word, digit, space) followed by the maximal runs of the remaining bytes, the last run being written only if it ends at 0xff, or by the negated description of the complement if that is shorter; brackets are written iff more than one part is counted.", "quantifier": "every byte class, both output modes", "why_tests_cant": "2^256 classes.", "anchors": ["src/util/dump_charclass.rs: describe_class, describe_class_int, extract_mnemonic, contiguous_range"]}
{"id": "C72", "title": "Dumps identify trees", "statement": "Accepted patterns whose trees differ in more than the parse modes their classes remember (which no dump shows) have different dumps. [False of the code: a caseless letter is dumped like the upper-case letter alone.]", "quantifier": "every pair of accepted patterns and modes", "why_tests_cant": "All pairs of strings.", "anchors": ["src/parser/dump.rs: dump_tree", "src/util/dump_charclass.rs: describe_class"]}
{"id": "C73", "title": "Record of an expression", "statement": "The record made for an accepted expression has the given position and id; SINGLEMATCH, PREFILTER and QUIET are those of the flags; it is UTF-8 iff the UTF8 flag is set or the text starts with a UTF control verb; it never allows vacuous matches and never asks for start of match.", "quantifier": "every expression, flag value, position and id", "why_tests_cant": "All strings x flags.", "anchors": ["src/compiler.rs: ParsedExpression::new", "src/compiler/expression_info.rs: ExpressionInfo"]}
{"id": "C74", "title": "Graphs in the small-write builder", "statement": "Offering a graph whose reports are known to the small-write builder succeeds; it poisons the builder, changing nothing else, exactly for start of match, vacuous graphs (an edge from a start vertex to an accepting one) and reports (of vertices leading to an accepting one) with a positive minimum length. [False of the code: every other graph panics, the conversion is not written.]", "quantifier": "every builder, report table, graph and expression record", "why_tests_cant": "Unbounded graphs.", "anchors": ["src/smallwrite/smallwrite_build.rs: SmallWriteBuild::add_expression", "src/nfagraph/ng_holder.rs: all_reports, is_vacuous"]}
{"id": "C75", "title": "Flag sets", "statement": "The eleven flags are the lowest eleven bits in Hyperscan's order; flag sets behave as sets of bits with complements taken within the eleven; setting or clearing one flag leaves the others alone.", "quantifier": "every pair of 16-bit flag values", "why_tests_cant": "2^32 pairs; laws.", "anchors": ["src/lib.rs: Flags"]}
{"id": "C76", "title": "Byte descriptions read back", "statement": "Read as an item of a regular expression character class (in DOT mode after undoing the string quoting), the description of a byte stands for that byte. [False of the code: hexadecimal numbers below 16 are padded with a space.]", "quantifier": "every byte, both output modes", "why_tests_cant": "Full domain; fixes the meaning of every dump.", "anchors": ["src/util/dump_charclass.rs: describe_char"]}
{"id": "C77", "title": "Class descriptions under a length limit", "statement": "With a limit of n > 0 parts, a class of 2 to 254 bytes that is not a single run and has at least n mnemonics and non-final runs is described by the first n of them followed by '...]'; otherwise the limit has no effect. Describing fails exactly when the text of the class or of its complement is not cut short and ends in a run of two to four bytes up to 0xff. Limits 0 and 256 or more have no effect.", "quantifier": "every byte class, limit and output mode, both profiles", "why_tests_cant": "2^256 classes x unbounded limits.", "anchors": ["src/util/dump_charclass.rs: describe_class, describe_class_int"]}
{"id": "C78", "title": "Debug and release builds agree", "statement": "Whatever the debug build of parse, compile_multi, graph building, dumping, the arithmetic helpers and the byte sets returns without panicking, the release build returns too.", "quantifier": "every input to each of the functions whose result can depend on the build profile", "why_tests_cant": "Relates two builds over all inputs; no test compares them.", "anchors": ["src/lib.rs: compile_multi", "src/parser.rs: parse", "src/parser/dump.rs: dump_tree", "src/util/ue2common.rs: round_up_n, round_down_n", "src/util/bitfield.rs: BitField256"]}
{"id": "C79", "title": "Order of the expressions does not matter", "statement": "Reordering the expressions (with their flags and ids) does not change whether compile_multi succeeds, nor the minimum width, the exhaustion bookkeeping, the accepted strings of the small-write tries and whether the small-write builder is poisoned; a sublist of a list that compiles also compiles if not empty.", "quantifier": "every list of expressions and every permutation or sublist of it, every mode", "why_tests_cant": "Factorially many orders of unbounded lists.", "anchors": ["src/lib.rs: compile_multi_int", "src/util/report_manager.rs: register_ext_report", "src/nfagraph/ng.rs: add_literal"]}
{"id": "C80", "title": "Patterns compose", "statement": "For patterns accepted by a release build: s|t matches the union of what s and t match; (s) matches what s matches, unless s is * followed by something, in which case (s) starts with a control verb; st matches the concatenations if neither has a | outside groups; (s)(t) matches the concatenations.", "quantifier": "every pair of accepted patterns and every mode (t starting with no control verb; a control verb of s stays one)", "why_tests_cant": "Unboundedly many pairs of patterns and strings; tests look at single patterns only.", "anchors": ["src/parser.rs: Context::parse", "src/parser/component_sequence.rs: add_alternation, finalize", "src/parser/control_verbs.rs: read_control_verbs"]}
{"id": "C81", "title": "Caseless parsing is closure under letter case", "statement": "Whether a pattern is accepted does not depend on the mode. Parsed caseless, a pattern matches exactly the strings that differ only in ASCII letter case from a string it matches when parsed with regard to case. Parsed caseless, patterns without control verb that differ only in the case of letters have the same outcome, tree and error included.", "quantifier": "every pattern, every pair of modes, every byte string, both profiles", "why_tests_cant": "Exponentially many case variants of unboundedly many patterns.", "anchors": ["src/parser/component_class.rs: get_literal_component_class", "src/parser/ascii_component_class.rs: add", "src/util/charreach.rs: make_caseless", "src/parser.rs: add_literal"]}
{"id": "C82", "title": "The language of an accepted pattern is non-empty and bounded", "statement": "Every accepted pattern matches some string; every string it matches consists of ASCII bytes and has at most as many bytes as the pattern body has characters other than ( ) |.", "quantifier": "every accepted pattern, every mode, both profiles", "why_tests_cant": "Unboundedly many patterns and strings.", "anchors": ["src/parser.rs: Context::parse", "src/parser/component.rs"]}
{"id": "C83", "title": "Printing to a writer that may fail", "statement": "Describing a class or dumping a tree makes a sequence of write calls that does not depend on the writer and whose text is what is printed into a String. The first call that fails ends the printing with that call's error and no further call is made; a panic of the printer itself happens for every writer after the same calls. Dumping the tree of an accepted pattern never panics of itself.", "quantifier": "every byte class, length limit, output mode and component tree, every writer (with any behaviour at any call), both profiles", "why_tests_cant": "Every failure point of every text; tests print into Strings, which never fail.", "anchors": ["src/util/dump_charclass.rs: describe_class, describe_class_int, describe_range, describe_char, extract_mnemonic", "src/parser/dump.rs: DumpVisitor, dump_tree"]}
{"id": "C84", "title": "No hidden overflow, out-of-range index or endless loop", "statement": "With every addition, subtraction, multiplication, shift and index checked and every loop run as written: case conversion, byte-set searches, the loops over the members of a class, the description of classes, the iterator over literals and the insertion of literals into a trie never overflow, never index out of range and end after at most one test per element plus one, in both profiles. The literal iterator yields each element once, in order, and then nothing for ever.", "quantifier": "every byte, byte set, class, literal, writer and trie reached from the empty one, both profiles", "why_tests_cant": "2^256 classes, unbounded literals and tries.", "anchors": ["src/util/compare.rs: mytolower, mytoupper", "src/util/bitfield.rs: test, set, count, find_first, find_last, find_next", "src/util/charreach.rs: is_alphabetic, is_bit5_insensitive, Display, fill_bitvector, make_and_cmp_mask", "src/util/dump_charclass.rs: contiguous_range, describe_class_int", "src/util/ue2string.rs: Ue2LiteralIter::next, mixed_sensitivity, push", "src/smallwrite/smallwrite_build.rs: add_to_trie"]}
{"id": "C85", "title": "DOT descriptions", "statement": "The DOT description of a byte, range, list of items or class is its text description with backslashes doubled and quotes escaped; put between double quotes it ends where it should and reads back as the text. Both forms panic, diverge or return alike. [False of whole classes: describe_class takes the shorter of two texts, and quoting can change which one that is.]", "quantifier": "every byte, range, class and length limit, both profiles", "why_tests_cant": "2^256 classes.", "anchors": ["src/util/dump_charclass.rs: describe_char, describe_range, extract_mnemonic, describe_class_int, describe_class"]}
{"id": "C86", "title": "The small-write builder stays small", "statement": "After any sequence of calls each literal trie has at most 8000 vertices plus the length of one literal (the buffer limit), at most one of the two exceeds 8000, at most one literal is counted beyond the limit, no more reports are stored than literals counted, and a builder that is not poisoned is within all limits. A finished compilation, whatever the number and length of its expressions, holds at most 16000 trie vertices plus one buffer, and one internal report.", "quantifier": "every sequence of add_literal and add_expression calls, every set of expressions, all limits", "why_tests_cant": "Unbounded histories.", "anchors": ["src/smallwrite/smallwrite_build.rs: new, add_literal, add_expression, add_to_trie", "src/compiler.rs: build"]}
{"id": "C87", "title": "The pointer to the report manager", "statement": "However many compilers are created, used and dropped, in whatever order and at whatever (reused) addresses: the raw pointer kept by each small-write builder leads to the report manager of the compiler it belongs to, in its current state. So following it is never a read of freed or foreign memory, and add_expression behaves as if handed that report manager; no call touches another compiler. Moving a compiler would break this, which is why it is pinned.", "quantifier": "every history of creating, using and dropping compilers, every allocation of addresses", "why_tests_cant": "Address reuse and dangling pointers show up only in particular allocation histories, and then as undefined behaviour.", "anchors": ["src/nfagraph/ng.rs: new, add_literal, add_graph", "src/smallwrite/smallwrite_build.rs: SmallWriteBuild::rm, new, add_expression"]}
{"id": "C88", "title": "Compiling two sets of expressions together", "statement": "Two non-empty lists of expressions compile together exactly if each compiles, their total number is within the limit and no literal of one has the id of a literal of the other with a different SINGLEMATCH flag. The minimum width is then the smaller of the two, everything is exhaustible iff both are, the ids with exhaustion keys are those of either; if the small-write builder is not poisoned then neither part's is, and its tries accept exactly what those of either part accept.", "quantifier": "every pair of lists of expressions with flags and ids, every mode and setting, both profiles", "why_tests_cant": "Unbounded pairs of lists; tests compile single lists.", "anchors": ["src/lib.rs: compile_multi_int", "src/nfagraph/ng.rs: add_literal", "src/util/report_manager.rs: register_ext_report, get_exhaustible_key", "src/smallwrite/smallwrite_build.rs: add_literal"]}
{"id": "C89", "title": "The parser on UTF-8 bytes", "statement": "With strings as the bytes they are in memory - characters decoded by std's algorithm, slices cut at byte offsets with a panic inside a character, nom's char, take, tag and is_not as they work on bytes - the parser has the same outcome on every string as the parser on characters that the other properties are about: same tree, mode, error text and index. The well-formed byte sequences of RFC 3629 are exactly the encodings of texts, one per text. A string can be cut exactly between two characters; anywhere else cutting panics.", "quantifier": "every well-formed byte sequence, every mode, both profiles", "why_tests_cant": "Unboundedly many strings; the tests use ASCII only, where bytes and characters coincide.", "anchors": ["src/parser.rs: Context::main, push_sequence, take_any, parse", "src/parser/control_verbs.rs: read_control_verbs, control_verb"]}
{"id": "C90", "title": "Graphs as petgraph stores them", "statement": "petgraph keeps a graph as linked lists: each vertex has the number of its newest outgoing and incoming edge, each edge those of the next older ones. After any sequence of added vertices, added edges and changed weights, following these links ends after at most one step per edge and gives, newest first, the neighbours the rest of the model reads off a plain list of edges; looking for an edge finds the newest one, or nothing if there is none. Both forms panic on the same changes.", "quantifier": "every sequence of changes, every vertex index, every pair of indices", "why_tests_cant": "Unbounded histories; a wrong link shows only for particular loops and parallel edges.", "anchors": ["src/nfagraph/ng_holder.rs: new, add_vertex, all_reports, is_vacuous", "src/smallwrite/smallwrite_build.rs: add_to_trie"]}
{"id": "C91", "title": "Case flags as bit-vec stores them", "statement": "The case flags of a literal are kept in 32-bit blocks. After pushing any flags no operation has panicked or shifted out of range, there is one block per 32 flags begun, every flag reads back and reading beyond them gives nothing, the test whether any is set sees exactly the flags pushed (no stray bit of the last block), and comparing two gives the order of the lists of flags.", "quantifier": "every list of fewer than 2^64 flags, every pair of them, every index, both profiles", "why_tests_cant": "Unbounded lists; block boundaries.", "anchors": ["src/util/ue2string.rs: Ue2Literal::{push, any_nocase, cmp}, Ue2LiteralIter::next"]}
{"id": "C92", "title": "Literals, tries and the NFA graph on their stored forms", "statement": "The functions of ue2string, smallwrite_build and ng_holder that use bit-vec and petgraph, run on 32-bit blocks and on linked lists of edges with their searches taken one step at a time, do what they do on plain lists: the literal gives the same elements, the small-write builder ends with the same counts, flags and tries or the same panic, a new NFA graph has the same vertices and neighbours, and its reports and the test for an edge past all characters are the same. No search runs on.", "quantifier": "every list of bytes and flags, every sequence of literals and reports added to a new builder with any limits, every graph made by adding vertices and edges and changing weights, both profiles", "why_tests_cant": "Unbounded histories; the two representations never both exist in a running program.", "anchors": ["src/util/ue2string.rs: Ue2Literal::push, Ue2LiteralIter::next", "src/smallwrite/smallwrite_build.rs: SmallWriteBuild::add_literal, add_to_trie", "src/nfagraph/ng_holder.rs: NgHolder::{new, all_reports, is_vacuous}"]}
{"id": "C93", "title": "The whole compiler on the stored forms", "statement": "compile_multi_int run on what the program stores \u2014 patterns as UTF-8 bytes, literals and case flags in 32-bit blocks, tries and the NFA graph as linked adjacency lists, byte sets searched with every shift, addition and index checked \u2014 ends as it does on plain characters and lists: the same error with the same expression index, the same panic, or the same database; before it is built, the same minimum width, reports, settings and small-write counts, and tries with the same weights and neighbours. The graph of any parse tree has the same vertices, weights and neighbours.", "quantifier": "every slice of strings of fewer than 2^64 bytes each, all flags, ids, modes and limits, every parse tree, both profiles", "why_tests_cant": "Every input and history at once; the two representations never both exist in a running program.", "anchors": ["src/lib.rs: compile_multi_int", "src/compiler.rs: add_expression, build_graph", "src/nfagraph/ng.rs: Ng::add_literal", "src/parser/shortcut_literal.rs: shortcut_literal", "src/parser/build_state.rs: GlushkovBuildState"]}
{"id": "C94", "title": "Hash tables of any layout", "statement": "Nothing the compiler does depends on how hash maps and sets are laid out, hashed or gone through: on any tables that keep the documented promises of HashMap, HashSet and BTreeMap, with a different hash function for every table, the report manager gives the same answers to any sequence of calls, compile_multi_int gives the same database, error or panic, and the Ng before it the same reports, ids, keys and tries. The one place that goes through a set in its own order, the test for reports with a minimum length in the small-write builder, gives the same answer whenever the reports exist.", "quantifier": "every lawful implementation of the tables, every sequence of calls, all expressions, flags, ids, modes and limits, both profiles", "why_tests_cant": "std seeds every table at random; a test sees one layout per run.", "anchors": ["src/util/report_manager.rs: ReportManager", "src/smallwrite/smallwrite_build.rs: add_to_trie, SmallWriteBuild::add_expression", "src/parser/build_state.rs: GlushkovBuildState::connect_successors", "src/nfagraph/ng_holder.rs: NgHolder::all_reports"]}
{"id": "C95", "title": "Adding literals and graphs in any order", "statement": "The build state used through its own interface, with every start-of-match setting: after any sequence of add_literal and add_graph calls that did not fail, a start of match is noted iff some added graph or taken literal has one, there is at most one report and its minimum length is 0, external ids, global exhaustion and exhaustion keys are those of the taken literals, the minimum width is the length of the shortest, and the small-write builder was given each of them; and the answer of the next add_literal call, including which check fails first and with what message, is determined by the literals taken so far.", "quantifier": "every sequence of fewer than 2^32 calls, all literals, ids, flags, start-of-match settings and limits, both profiles", "why_tests_cant": "Histories of calls; the compiler never asks for a start of match, so no test through it reaches that half of add_literal.", "anchors": ["src/nfagraph/ng.rs: Ng::add_literal, Ng::add_graph", "src/util/report.rs", "src/util/report_manager.rs: ReportManager"]}
{"id": "C96", "title": "The compiler keeps to the aliasing rules", "statement": "Under Stacked Borrows, the rules for references and raw pointers that Miri checks, compiling never has undefined behaviour on the memory of the boxed build state, from its creation with the self-pointer to its drop, also after errors and panics; and the result is that of the compiler without the rules.", "quantifier": "all lists of expressions, flags and ids, all modes and limits, both profiles", "why_tests_cant": "Undefined behaviour of this kind shows in no result; a test sees it only under Miri, and only on the inputs it runs.", "anchors": ["src/nfagraph/ng.rs: Ng::new, Ng::add_literal, Ng::add_graph", "src/compiler.rs: add_expression", "src/parser/shortcut_literal.rs: shortcut_literal", "src/lib.rs: compile_multi_int"]}
{"id": "C97", "title": "The small-write builder may follow its pointer", "statement": "Under Stacked Borrows, whatever was done with a build state through its methods, the next literal, graph, look or graph offered to the small-write builder has no undefined behaviour.", "quantifier": "every sequence of such steps, all literals, graphs, expressions and limits, both profiles", "why_tests_cant": "The pointer is only followed by code that nothing calls yet, so no test reaches it.", "anchors": ["src/nfagraph/ng.rs: Ng::new", "src/smallwrite/smallwrite_build.rs: SmallWriteBuild::add_expression"]}
{"id": "C98", "title": "Each of these defects is one line", "statement": "The full statements of C16, C18, C22, C32, C33, C42, C50, C52, C60, C61, C65, C72, C74, C76, C85, C97 and C100, which are false of the code, hold of the same functions with one line changed (in C52, with the mode passed on; in C61 and C72, with C60's line changed too).", "quantifier": "everything the statements quantify over; for the parser all patterns of fewer than u32::MAX bytes", "why_tests_cant": "A test that fails shows that something is wrong, not that one line is all that is wrong.", "anchors": ["src/util/charreach.rs: CharReach::fill_bitvector", "src/util/ue2common.rs: round_up_n, round_down_n", "src/util/ue2string.rs: Ue2Literal::eq", "src/util/dump_charclass.rs: describe_char, describe_range, describe_class_int", "src/util/report_manager.rs: register_ext_report", "src/parser/build_state.rs: filter_edges", "src/parser.rs: push_sequence, main", "src/lib.rs: compile_multi_int", "src/parser/dump.rs: dump_tree", "src/smallwrite/smallwrite_build.rs: add_expression", "src/nfagraph/ng.rs: new"]}
{"id": "C99", "title": "The compiler keeps to Tree Borrows", "statement": "Under Tree Borrows, the other rules for references and raw pointers that Miri checks, compiling never has undefined behaviour on the memory of the boxed build state, from its creation with the self-pointer to its drop, also after errors and panics, whether or not the methods of its fields write on each call; and the result is that of the compiler without the rules.", "quantifier": "all lists of expressions, flags and ids, all modes and limits, every choice of which calls write, both profiles", "why_tests_cant": "Undefined behaviour of this kind shows in no result; a test sees it only under Miri, and only on the inputs it runs.", "anchors": ["src/nfagraph/ng.rs: Ng::new, Ng::add_literal, Ng::add_graph", "src/compiler.rs: add_expression", "src/parser/shortcut_literal.rs: shortcut_literal", "src/lib.rs: compile_multi_int"]}
{"id": "C100", "title": "The small-write builder may follow its pointer under Tree Borrows", "statement": "Under Tree Borrows, whatever was done with a build state through its methods, the next literal, graph, look or graph offered to the small-write builder has no undefined behaviour.", "quantifier": "every sequence of such steps, all literals, graphs, expressions and limits, every choice of which calls write, both profiles", "why_tests_cant": "The pointer is only followed by code that nothing calls yet, so no test reaches it.", "anchors": ["src/nfagraph/ng.rs: Ng::new", "src/smallwrite/smallwrite_build.rs: SmallWriteBuild::add_expression"]}
{"id": "C101", "title": "How deep calls are nested", "statement": "The parser keeps its groups on the heap, but walking a tree, noting its positions and dropping it are recursive. Compiling with limited room on the call stack overflows or ends as it does with unlimited room. Expressions that compile need room for exactly as many nested calls as the deepest of their trees; with n groups open at once that is between 2n+2 and 5n+8, and never more than 5 for every 3 characters (plus 14/3), and each of these bounds is attained. So room for 26672 calls suffices for everything within the default limits, refused patterns too, and in release builds room for fewer than 16002 does not.", "quantifier": "all lists of expressions, flags and ids, all modes and limits, every amount of room, both profiles; the attaining patterns of every size", "why_tests_cant": "The deepest call is reached by patterns near the length limit that nobody writes; an overflow ends the process rather than failing an assertion, and the room depends on the thread.", "anchors": ["src/parser/component.rs: walk_component, note_positions", "src/parser/component_alternation.rs: walk_component_alternation, note_positions", "src/parser/component_sequence.rs: walk_component_sequence, note_positions", "src/parser.rs: Context", "src/compiler.rs: add_expression, build_graph"]}
{"id": "C102", "title": "Other pointer widths", "statement": "The model takes usize to have 64 bits. With w bits every compilation ends as it does with 64, to the same database or the same error or panic, except for the number in the message about a group left open: for a group starting at byte k > 0 of its expression a release build prints 2^w - k. Debug builds do not differ.", "quantifier": "every width, all lists of expressions, flags and ids, all modes and limits, both profiles; for the number, every width up to 64 and every ASCII pattern that fits", "why_tests_cant": "Tests run on one target; nobody runs the suite on a 32-bit machine to compare error texts.", "anchors": ["src/parser.rs: push_sequence, main", "src/lib.rs: compile_multi_int", "src/compiler.rs: add_expression"]}
{"id": "C103", "title": "The work of compiling is linear", "statement": "Whether it succeeds, is refused or panics, a compilation takes at most 272 steps for each character of the patterns, 44 for each pattern and two more; one that succeeds takes at least one step for each character and 16 for each pattern. Parsing an accepted pattern of n characters takes exactly n + 18 steps without a control verb and n + 15 with one; walking, noting and dropping its tree takes a number of calls between two linear bounds in its counts of literal characters, groups and bars.", "quantifier": "all lists of expressions, flags and ids, all modes and limits, both profiles; all visitors; all parsed trees", "why_tests_cant": "Timings of a few patterns cannot exclude a pattern that makes the compiler quadratic.", "anchors": ["src/parser.rs: parse, main", "src/parser/control_verbs.rs: read_control_verbs", "src/parser/component.rs: walk_component", "src/compiler.rs: add_expression, build_graph", "src/smallwrite/smallwrite_build.rs: add_to_trie", "src/lib.rs: compile_multi_int"]}
{"id": "C104", "title": "The aliasing rules", "statement": "The rules under which C96 to C100 are stated are these. Stacked Borrows: a read needs an item of the pointer that is not disabled, disables the unique items above the topmost one, and is undefined if one of those is protected; a write needs a unique or shared read-write item, removes what is above (but for a row of shared read-write items directly above one of that kind), and is undefined if something removed is protected. Tree Borrows: each pointer's permission changes by a table of child and foreign accesses or the access is undefined; permissions only go forward; two reads may be swapped (not so under Stacked Borrows).", "quantifier": "all stacks, trees, pointers, accesses and sets of running calls", "why_tests_cant": "Rules of a memory model are not executed by any test of the code.", "anchors": ["src/nfagraph/ng.rs: new, add_literal, add_graph", "src/smallwrite/smallwrite_build.rs: add_expression"]}
{"id": "C105", "title": "A reference program for compiling", "statement": "compile and compile_multi return, for every list of expressions, flags, ids and mode, in debug and in release builds, exactly what a short reference program says: the same success with the same mode, or the same error with the same text, kind and expression index, or a panic with the same message. The program reads each text once from left to right with the positions of the open groups and notes id, SINGLEMATCH and position of the first literal expression of each id; it builds no tree, graph, trie or report table.", "quantifier": "all lists, flags, ids, modes, both profiles, all settings within the integer ranges", "why_tests_cant": "The texts of errors are asserted by tests for single patterns; that nothing else of the many data structures built can influence the result is not testable.", "anchors": ["src/lib.rs: compile, compile_multi, compile_multi_int", "src/compiler.rs: add_expression", "src/parser.rs: parse", "src/parser/control_verbs.rs", "src/util/report_manager.rs: register_ext_report"]}
{"id": "C106", "title": "What is missing from building graphs", "statement": "If the positions a component can begin and end with are passed to the code's connect_regions and the successors it records become edges, and nothing else is changed, the graph of an expression accepts exactly the strings that end with a match of it (the full statement of C41, false of the code, and its converse), has the vertices and keeps the edges the code gives it, and is recognised as vacuous exactly if the expression matches the empty string.", "quantifier": "all component trees of fewer than 65532 literal characters, all inputs, both profiles", "why_tests_cant": "Language equality; and a test of the code can only show that something is missing.", "anchors": ["src/compiler.rs: build_graph", "src/parser/build_state.rs: connect_regions, connect_successors, filter_edges", "src/parser/component_sequence.rs: note_positions", "src/parser/component_alternation.rs: note_positions", "src/nfagraph/ng_holder.rs: NgHolder"]}
{"id": "C107", "title": "When two patterns are the same to the compiler", "statement": "Two accepted patterns give the same component tree if and only if their texts after any control verb are equal, up to ASCII capitals if both are caseless, and have no literal characters if only one is. Lists of expressions that are the same in this sense pair by pair compile alike, to the same result and the same internal state.", "quantifier": "all accepted patterns and parse modes; all lists of expressions, flags and ids within the length limit, both profiles", "why_tests_cant": "An equivalence over all pairs of patterns; a test can only compare two of them.", "anchors": ["src/parser.rs: add_literal, parse", "src/parser/component_class.rs: get_literal_component_class", "src/parser/ascii_component_class.rs: AsciiComponentClass", "src/lib.rs: compile_multi_int", "src/compiler.rs: add_expression"]}
{"id": "C108", "title": "A compiler without these defects", "statement": "A compiler that registers every expression, keeps what it is told about reports, completes and keeps the graphs, reads SOM_LEFTMOST and ALLOWEMPTY, and checks its lists has all of the properties that C41, C47, C48, C50, C52, C57, C66 and C69 deny of the code at once: the minimum width is the least length of a match, reports carry the ids and flags of the expressions they are for, conflicts are errors, the exhaustion bookkeeping and the mode are right, every expression is checked, and each graph accepts what it should. It never panics, debug and release builds agree, it returns exactly what a short reference program says, and it refuses whatever a release build of the code refuses.", "quantifier": "all lists of expressions, flags and ids, all modes, both profiles, all settings within the integer ranges, at most as many patterns as reports and patterns of fewer than 65532 bytes", "why_tests_cant": "The properties are about all lists of expressions; and testing the code cannot show that they are compatible with each other.", "anchors": ["src/lib.rs: compile_multi_int", "src/compiler.rs: ParsedExpression::new, add_expression", "src/nfagraph/ng.rs: add_literal", "src/util/report.rs: Report", "src/util/report_manager.rs: get_internal_id, register_ext_report, get_exhaustible_key", "src/parser/shortcut_literal.rs: shortcut_literal"]}
{"id": "C109", "title": "Debug texts identify values", "statement": "The derived Debug text of a compile error, in {:?} and in {:#?}, determines its kind, its reason and its expression index, whatever Unicode tables std uses to escape strings; {:?} is one line, and for a reason without characters to escape both texts are written out. The same holds of parse trees (parse modes and capture data included), byte sets, classes, depths, parse modes and of both bitflags types; the text of declared flags is their names in order, separated by bars.", "quantifier": "every value of each type, every choice of printable and grapheme-extending characters, {:?} and {:#?}", "why_tests_cant": "All strings and trees, and all Unicode tables.", "anchors": ["src/util/compile_error.rs: CompileError, ErrorKind", "src/parser/component.rs: Component", "src/parser/component_sequence.rs: ComponentSequence", "src/parser/component_alternation.rs: ComponentAlternation", "src/parser/component_class.rs: ComponentClass", "src/parser/ascii_component_class.rs: AsciiComponentClass", "src/parser/parser_util.rs: ParseMode", "src/util/bitfield.rs: BitField256", "src/util/charreach.rs: CharReach", "src/util/depth.rs: Depth", "src/util/dump_charclass.rs: CcOutput", "src/lib.rs: Flags", "src/parser/position.rs: PosFlags"]}
{"id": "C110", "title": "Hash agrees with equality", "statement": "Equal reports, positions, byte sets and classes make the same calls on a Hasher, and different ones make different calls, also if further calls follow.", "quantifier": "every pair of values, both byte orders", "why_tests_cant": "All pairs of values.", "anchors": ["src/util/report.rs: Report", "src/parser/position_info.rs: PositionInfo", "src/util/bitfield.rs: BitField256", "src/util/charreach.rs: CharReach"]}
{"id": "C111", "title": "Every stored form at once", "statement": "C93 changes how texts, literals, graphs and byte sets are stored, C94 how maps and sets are; a compiler with both changes at once - patterns as UTF-8 bytes, literals in 32-bit blocks, linked adjacency lists whose vertices carry hash sets of reports, hash maps for successors and report ids, checked shifts and indices - still ends as on plain lists: the same database, the same error, the same panic, and the same as the reference program of C105 says. Before the database is built its minimum width, settings, reports, ids, match ids, keys, small-write counts and tries agree; the NFA graph of any tree and the state it is built in agree, and so does offering that graph to the small-write builder.", "quantifier": "every list of well-formed UTF-8 texts of at most isize::MAX bytes, all flags, ids, modes and limits, every parse tree, every lawful implementation of the tables, both profiles", "why_tests_cant": "Every input, history and table layout at once.", "anchors": ["src/lib.rs: compile_multi_int", "src/compiler.rs: add_expression", "src/nfagraph/ng.rs: Ng", "src/nfagraph/ng_holder.rs: NgHolder", "src/parser/shortcut_literal.rs: shortcut_literal", "src/parser/build_state.rs: GlushkovBuildState", "src/smallwrite/smallwrite_build.rs: SmallWriteBuild", "src/util/report_manager.rs: ReportManager"]}
{"id": "C112", "title": "How much memory is enough", "statement": "Heap memory is counted in elements: of vectors, maps, sets, vertices, edges, bytes of error messages, blocks of bit vectors. Compiling n patterns needs at most 23 + 5 n + 2 min(sum of lengths, 16000 + small-write buffer) + 6 (longest length) elements at once, beside the message of an error; patterns that are too long do not count. With that much room it ends as if there were no limit. Whatever the limit, if it ends it ends that way, gives everything back after a success or a panic and keeps only the message after an error. A success needs room for the final Ng, an error for its message. A message has at most 172 bytes, or 33 more than a pattern may have, so that compile_multi never has more than 5 n + 144196 elements alive. Parsing needs two elements per character and leaves just the tree, building the graph needs one per leaf and leaves just the graph.", "quantifier": "all lists of patterns, flags and ids, all modes, settings, limits and amounts already in use, both profiles", "why_tests_cant": "Every input and every limit; tests see neither the peak nor a leak.", "anchors": ["src/lib.rs: compile_multi_int", "src/compiler.rs: add_expression", "src/compiler.rs: ParsedExpression", "src/parser.rs: parse", "src/parser/component_sequence.rs: finalize", "src/parser/shortcut_literal.rs: shortcut_literal", "src/parser/build_state.rs: GlushkovBuildState", "src/nfagraph/ng.rs: add_literal", "src/smallwrite/smallwrite_build.rs: add_literal", "src/util/report_manager.rs: ReportManager"]}
{"id": "C113", "title": "What the settings decide", "statement": "With limits that fit the integer types and at least one report allowed, the outcome of compiling depends on the settings (Grey) only through the limit on the number of patterns, the limit on their length, and whether allow_literal and shortcut_literals are both set: the small-write settings, flood_as_puffette and the report limit never change it. Larger limits change it only if the smaller one was the reason of the failure. Not looking for literals changes it only if two literal expressions with the same id disagreed about SINGLEMATCH. What is accepted stays accepted with larger limits or without looking for literals. A report limit of 0 refuses exactly the first literal expression, with a resource error that names it, and otherwise acts like not looking for literals. If literals are not looked for, nothing is recorded: no width, reports, ids or keys, and the small-write tries accept nothing.", "quantifier": "all lists of patterns, flags and ids, all modes, all pairs of settings within the integer ranges, both profiles", "why_tests_cant": "Settings are combinations of ten values, and Grey is private: tests only see the default.", "anchors": ["src/grey.rs: Grey", "src/lib.rs: compile_multi_int", "src/compiler.rs: add_expression", "src/parser/shortcut_literal.rs: shortcut_literal", "src/nfagraph/ng.rs: add_literal", "src/util/report_manager.rs: get_internal_id", "src/smallwrite/smallwrite_build.rs: SmallWriteBuild"]}
{"id": "C114", "title": "Builders used in any way", "statement": "The builders the parser and the compiler use keep their contracts under any calls, not only those the code makes. Components added to an empty sequence with bars between them in any way give, after finalize, the components themselves or one alternation of the pieces between the bars; it matches what one of the pieces matches, keeps number and name of the group, has no pending alternative, and finishing twice is finishing once. Any mix of make_position and add_char_reach panics exactly if bytes are given to a position not made before or there are too many; otherwise the positions are the next numbers, a vertex accepts exactly the bytes it did and those given to it, and nothing else changes. Any mix of get_internal_id, get_exhaustible_key and register_ext_report on one report manager gives each kind the answers it would get without the others. Position flags are bit sets.", "quantifier": "all lists of calls, in any order and from any state the types allow (sequences: from an empty one)", "why_tests_cant": "Unbounded histories of interleaved calls.", "anchors": ["src/parser/component_sequence.rs: ComponentSequence", "src/nfagraph/ng_builder.rs: NfaBuilder", "src/nfagraph/ng_holder.rs: add_vertex", "src/util/report_manager.rs: ReportManager", "src/parser/position.rs: PosFlags"]}
{"id": "C115", "title": "What patterns can express", "statement": "The strings a parse tree matches are finitely many and can be listed. A set of byte strings is what some pattern matches exactly if it is finite and not empty, every byte in it is ASCII and none of ( ) |, and, when case does not count, it contains with a string those equal to it but for the case of letters. Groups and control verbs add nothing: the strings of any accepted pattern written with bars between them are a pattern without parentheses which every build, debug builds included, accepts and which matches the same strings. Hence what two patterns both match, what one but not the other matches, what either matches and the concatenations are each what some pattern matches (the first two if not empty).", "quantifier": "all sets of byte strings, modes and profiles; all accepted patterns", "why_tests_cant": "A characterisation of all sets of strings, and an equivalence of unboundedly large patterns.", "anchors": ["src/parser.rs: parse", "src/parser/component.rs: Component", "src/parser/component_alternation.rs: ComponentAlternation", "src/parser/component_sequence.rs: ComponentSequence", "src/parser/ascii_component_class.rs: AsciiComponentClass"]}
{"id": "C116", "title": "Putting a pattern into a pattern", "statement": "What an accepted pattern pre(x)post matches depends on x only through what x matches by itself. There are pairs of strings which stand before and after the group and strings which pass it by, the same for all x, such that for every accepted y the pattern pre(y)post is accepted too and matches the strings passing by and those of y put between such a pair; there is at least one pair. So a text in a group may be replaced by one which matches the same strings, and one which matches more gives a whole that matches no less. (Neither text may start with a control verb, and the parenthesis itself must not start one.)", "quantifier": "all patterns with a group at any depth, all replacements and modes, release builds", "why_tests_cant": "Replacement at any depth in patterns of any size.", "anchors": ["src/parser.rs: parse", "src/parser/control_verbs.rs: read_control_verbs", "src/parser/component_sequence.rs: ComponentSequence"]}
{"id": "C117", "title": "Which trees the parser makes", "statement": "A component tree is what release builds make of some pattern exactly if it is a numbered sequence without a name, of items or of a single alternation of at least two unnumbered branches of items, an item being the class of one plain ASCII character in the mode given or again such a sequence, no sequence has a pending alternation, and the numbered sequences are numbered from 0 in the order of their beginnings (modulo 2^32). The trees among these with no group but the whole are those of patterns without an opening parenthesis, in every build.", "quantifier": "all component trees, modes and (for trees without groups) profiles", "why_tests_cant": "A characterisation of all trees: both that no other tree is made and that each of these is.", "anchors": ["src/parser.rs: parse", "src/parser/component_sequence.rs: ComponentSequence", "src/parser/component_alternation.rs: ComponentAlternation", "src/parser/ascii_component_class.rs: AsciiComponentClass"]}
{"id": "C118", "title": "Plain characters are all alike", "statement": "The outcome of compiling (the database, the text and index of the error, or the panic) depends on the expressions only through their lengths in UTF-8, their control verbs, where ( ) | stand and where characters beyond ASCII do: expressions alike in these give the same outcome, whatever other characters they contain. The same holds of whether and how parsing fails, whatever the modes. If plain characters are replaced by plain characters throughout a pattern, the strings it matches are those it matched before with the same replacements; without regard to case, provided the replacement respects letter case. (Neither text may start with a control verb for the latter.)", "quantifier": "all lists of expressions, flags, ids, modes, profiles and sane settings; all patterns and replacements", "why_tests_cant": "No test can show that no character has a hidden meaning in any context.", "anchors": ["src/parser.rs: Context::main", "src/parser.rs: parse", "src/compiler.rs: compile_multi_int", "src/parser/shortcut_literal.rs: shortcut_literal"]}
{"id": "C119", "title": "Which tries compiling can make", "statement": "With default settings, in any build and mode, two sets of strings are what the case-sensitive and the caseless trie of the small-write builder accept after some successful compilation (the builder not being poisoned) exactly if: no string is empty, longer than 70 bytes or contains a byte that is not ASCII or is one of ( ) |; those of the caseless trie also have a letter and no lower-case letter; there are at most 10000 strings in all; and each set has at most 8000 distinct prefixes (counting the empty one). So these limits can all be reached, and nothing else limits what can be stored.", "quantifier": "all pairs of finite sets of byte strings, all builds and modes", "why_tests_cant": "Tests try a few expressions; that every admissible pair of sets arises, and no other, is a statement about all inputs and all outputs.", "anchors": ["src/smallwrite/smallwrite_build.rs: SmallWriteBuild::add_literal", "src/parser/shortcut_literal.rs: shortcut_literal", "src/compiler.rs: compile_multi_int", "src/grey.rs: Grey::default"]}
{"id": "C120", "title": "Every result of compiling", "statement": "The results of compile_multi, with default settings, are exactly these, each of which is returned for some equally long lists of expressions, declared flags and 32-bit ids: the database; the error about an empty list; the one about too many expressions; at any position below 8000000 the errors about a too long expression, QUIET with SOM_LEFTMOST, unmatched parentheses, a group not closed (reported at minus an offset below 16000, as a 64-bit number; in debug builds only at 0), and any unsupported or unknown control verb that fits into an expression; in release builds the error about disagreement on SINGLEMATCH for any position, any earlier position and any id; a panic about a character beyond ASCII; in debug builds also panics about the position of a group and about such disagreement. For compile the list is the same with position 0, without the errors about lists and disagreement.", "quantifier": "all lists of expressions, flags and ids; both builds, all modes; all results", "why_tests_cant": "Tests show single results; that no other error, text, position or panic can come out, and that each of these does, ranges over all inputs and outputs.", "anchors": ["src/compiler.rs: compile_multi_int", "src/lib.rs: compile_multi", "src/lib.rs: compile", "src/parser.rs: parse", "src/util/report_manager.rs: ReportManager::register_ext_report"]}
{"id": "C121", "title": "What compiling stores is good for finding", "statement": "Unless the small-write builder is poisoned, one pass over the data with the two tries (the caseless one on capitals) finds exactly the offsets at which a match of a literal of at most 70 bytes ends; so whether there is such a match can be told from the stored state. Longer literals leave nothing but their length, id and SINGLEMATCH, other expressions nothing at all, and the ids of strings are lost, so no function whatever of the stored state and the data tells whether a longer literal or an alternation matches, nor which ids match. With the compiler of C108, the same pass over tries and graphs finds exactly the ids and ends of all matches, except of literals over 70 bytes. With shortcut_literals off it finds them all. On data of at most 70 bytes (small_write_largest_buffer, which the engine the tries are for is limited to) leaving out the longer literals loses nothing: all matches of all literals are found, and with the compiler of C108 all matches.", "quantifier": "all lists of expressions, flags and ids; all data; all functions of the stored state", "why_tests_cant": "Tests run one scanner on some data; that no scanner at all can work ranges over all functions, and that this one does over all data and expressions.", "anchors": ["src/smallwrite/smallwrite_build.rs: SmallWriteBuild::add_literal", "src/smallwrite/smallwrite_build.rs: add_to_trie", "src/nfagraph/ng.rs: Ng::add_literal", "src/nfagraph/ng.rs: Ng::add_graph", "src/runtime.rs: scan"]}
{"id": "C122", "title": "The tries are fit for the construction they are stored for", "statement": "The doc comment of LitTrie says it is stored for later Aho-Corasick construction into a DFA (which is not in the source). Carried out on any trie made by add_to_trie, with the vertices as states and failure links to the longest proper suffix, the construction is correct: after any data the state is the vertex of the longest suffix of the data in the trie, every vertex is reached, the reports of the state are exactly those inserted with a string ending there, and at most one failure link per byte is taken. If no report is given with two strings, no automaton with fewer states raises the right reports; compiling gives all strings the same report, and then two states may do the work of four. Unless the builder is poisoned, the two tries stored by compiling so give two automata of at most 8000 states that find exactly the ends of the matches of the literals of at most 70 bytes.", "quantifier": "all histories of insertions, all data; all lists of expressions, flags and ids", "why_tests_cant": "Tests run an automaton on some data; that its state always is the longest suffix, its linear cost and that no automaton is smaller range over all tries, all data and all automata.", "anchors": ["src/smallwrite/smallwrite_build.rs: LitTrie", "src/smallwrite/smallwrite_build.rs: add_to_trie", "src/smallwrite/smallwrite_build.rs: SmallWriteBuild::add_literal"]}
{"id": "C123", "title": "The graphs the construction is meant to build: one loop, and possibly quadratic", "statement": "When the construction of build_graph is carried through (completed as in C106), the graph of any pattern with n classes, fewer than 65532, has no edge twice and no loop but the one at the floating start: all other edges ascend in one numbering of the vertices. It has at most 5 + 3n + n(n-1)/2 edges, and this is attained for every n by the pattern of 4n characters (a|)(a|)...(a|): completed, compiling would no longer take work linear in the text (C103), a pattern of 16000 characters may need 8010005 edges.", "quantifier": "all component trees with fewer than 65532 classes; all n below 65532", "why_tests_cant": "Tests build the graphs of small patterns; that no pattern gives more edges, and that some pattern of every size gives as many, is a statement about all trees", "anchors": ["src/compiler.rs: build_graph", "src/parser/build_state.rs: connect_regions"]}
{"id": "C124", "title": "Patterns, graphs and tries in Mathlib's terms", "statement": "What an accepted pattern matches is what Mathlib's RegularExpression for its (only) grammar tree matches, by Mathlib's definition and by its matcher. The sets of strings that patterns can stand for are the non-empty finite ones (Set.Finite) of plain characters, closed under change of case if caseless, and are regular (Language.IsRegular). The graph that build_graph returns, read as a Mathlib NFA, accepts the empty language; completed as in C106 it accepts everything followed by a match. A trie with failure links is a Mathlib DFA for everything followed by an inserted string.", "quantifier": "all patterns and modes; all languages over bytes; all component trees with fewer than 65532 classes; all lists of literals with room", "why_tests_cant": "Ties the development's own notions of language and acceptance to independent ones, for all inputs", "anchors": ["src/parser.rs: parse", "src/compiler.rs: build_graph", "src/smallwrite/smallwrite_build.rs: add_to_trie"]}
{"id": "C125", "title": "Acceptance is context-free and not regular", "statement": "What a release build accepts after any control verb is exactly the language of a Mathlib ContextFreeGrammar with three nonterminals (alternation, sequence, item) and one rule per ASCII character without a meaning of its own. The set of accepted patterns is not regular (Language.IsRegular): no finite automaton or regular expression can check patterns in advance, the stack of the parser is needed.", "quantifier": "all texts and modes", "why_tests_cant": "Ties acceptance, for all texts, to an independent notion of grammar; that no finite automaton does is a statement about all automata", "anchors": ["src/parser.rs: parse", "src/parser.rs: Context::main"]}
{"id": "C126", "title": "What debug builds accept", "statement": "A debug build accepts exactly the ASCII texts without parentheses and those with a single group of such text at the very start (a supported control verb counts as one; a group starting with * may hold nothing else otherwise). So none with two opening parentheses is accepted, and, unlike for release builds (C125), the set of accepted patterns is regular.", "quantifier": "all texts and modes", "why_tests_cant": "An exact description of an infinite set, and a statement that some finite automaton decides it", "anchors": ["src/parser.rs: parse", "src/parser.rs: Context::main", "src/parser.rs: Context::push_sequence"]}
