# Formal model of msk/rescan: design

## What is modelled

All non-test code of `/repo/src`, plus the two test-only printers (`util/dump_charclass.rs`,
`parser/dump.rs`), function by function, as Lean 4 definitions under `lean/Verif/Model/`. Every
definition cites the Rust file and lines it transcribes.

| Lean file | Rust source |
|---|---|
| `Model/Prim.lean` | representation of Rust values and outcomes; std functions |
| `Model/Compare.lean` | `util/compare.rs` |
| `Model/Common.lean` | `util/ue2common.rs` |
| `Model/BitField.lean` | `util/bitfield.rs` |
| `Model/CharReach.lean` | `util/charreach.rs`, `util/unicode_def.rs` |
| `Model/DumpCharClass.lean` | `util/dump_charclass.rs` (printing into a `String`) |
| `Model/DumpSink.lean` | `util/dump_charclass.rs`, `parser/dump.rs` (printing to any `fmt::Write`) |
| `Model/Literal.lean` | `util/ue2string.rs`, `util/depth.rs` |
| `Model/Report.lean` | `util/report.rs`, `util/report_manager.rs`, `util/compile_error.rs`, `grey.rs` |
| `Model/Config.lean` | `lib.rs` (flags, modes), `som.rs`, `util/compile_context.rs`, `parser/parser_util.rs` |
| `Model/Component.lean` | `parser/component*.rs`, `parser/ascii_component_class.rs`, `parser/const_component_visitor.rs` |
| `Model/Parser.lean` | `parser.rs`, `parser/control_verbs.rs`, `parser/dump.rs`, `parser/prefilter.rs` |
| `Model/BitVecStore.lean` | bit-vec 0.6 `BitVec`: blocks, `push`, `get`, `any`, `cmp` |
| `Model/Hashed.lean` | everything that uses `HashMap`, `HashSet` or `BTreeMap`, and the compiler around it, on arbitrary tables |
| `Model/StoredCompiler.lean` | `compile_multi_int` and all it calls, on UTF-8 bytes, stored forms and checked arithmetic |
| `Model/Stored.lean` | `Ue2Literal`, `LitTrie`, `SmallWriteBuild`, `NgHolder` on the stored forms of bit-vec and petgraph |
| `Model/Petgraph.lean` | petgraph 0.5 `Graph`: linked adjacency lists, `Neighbors`, `find_edge` |
| `Model/Graph.lean` | petgraph as used, `nfagraph/ng_holder.rs`, `nfagraph/ng_builder.rs`, `parser/build_state.rs`, `parser/position*.rs`, `compiler/expression_info.rs` |
| `Model/SmallWrite.lean` | `smallwrite/smallwrite_build.rs` |
| `Model/Checked.lean` | parts of `util/*.rs` and `smallwrite_build.rs` again, with all arithmetic and indexing checked and loops as written |
| `Model/Borrows.lean` | `nfagraph/ng.rs`, `compiler.rs`, `shortcut_literal.rs`, `SmallWriteBuild::add_expression` with borrow stacks (Stacked Borrows) |
| `Model/Repaired.lean` | hypothetical one-line repairs, for C98 only; not code that exists |
| `Model/TreeBorrows.lean` | the same with borrow trees (Tree Borrows) |
| `Model/Completed.lean` | a hypothetical completion of `build_graph`, for C106 only; not code that exists |
| `Model/Mended.lean` | a hypothetical compiler without the defects found, for C108 only; not code that exists |
| `Model/Finder.lean` | a hypothetical scanner over the stored tries and graphs, for C121 only; not code that exists |
| `Model/AhoCorasick.lean` | the automaton the tries are stored for, for C122 only; not code that exists |
| `Model/RepairedPointer.lean` | a hypothetical repair of `Ng::new` under both, for C98 only; not code that exists |
| `Model/CallStack.lean` | the parser and compiler with limited room for nested calls |
| `Model/PointerWidth.lean` | the parser and compiler with `w`-bit `usize` |
| `Model/Work.lean` | the parser and compiler, counting steps |
| `Model/Bytes.lean` | the parser on the UTF-8 bytes of a pattern |
| `Model/Pinned.lean` | `nfagraph/ng.rs`, `compiler.rs` with a memory of `Ng` objects and the pointer into them |
| `Model/Whole.lean` | the compiler with the stored forms of `StoredCompiler` and `Hashed` at once |
| `Model/Memory.lean` | the compiler with a limit on the heap elements alive at once |
| `Model/Derived.lean` | derived `Debug` and `Hash`, `Debug` of bitflags |
| `Model/Compiler.lean` | `nfagraph/ng.rs`, `rose/*.rs`, `parser/shortcut_literal.rs`, `compiler.rs`, `lib.rs`, `database.rs`, `runtime.rs`, `scratch.rs` |

`Check/RepoTests.lean` transcribes every unit test of the project and evaluates it on the model during
the build. That is evidence for the transcription, not part of any proof.

## How Rust behaviour is represented

* **Profiles.** A `Profile` parameter (`debug`/`release`) decides `debug_assert!` and integer
  overflow: panic in debug, ignored / wrapping in release.
* **Outcomes.** A call gives `ok`, `err` (`Result::Err`), `panic`, or `timeout`. `timeout` means a
  loop of the model ran out of its iteration bound; a Rust loop diverges iff its model times out for
  every bound. Loops without an obvious structural argument carry such a bound, and it is proved
  sufficient (or, for `describe_range`, proved insufficient for every bound).
* **Integers.** `u8/u16/u32/u64` whose bits matter are `BitVec`. Counters and indices are `Nat` with
  explicit checks wherever the Rust code can overflow or `try_into`.
* **Strings** are lists of Unicode scalar values; `str::len` is the UTF-8 byte length.
* **Hash maps and sets** are association lists / duplicate-free lists. C94 shows that this loses nothing:
  every table that keeps std's documented promises gives the same results (in the dead `add_expression` of
  the small-write builder, as long as the report ids exist).
* **`&mut self`** methods return the new value. Where a caller drops the object on error, the state
  after the error is not modelled (said in the comment).

## What is not modelled

* Rust's aliasing rules, except for the one place where safe code does not guarantee them. The raw pointer
  `NonNull<ReportManager>` and `Pin<Box<Ng>>` are modelled as addresses in a memory of `Ng` objects
  (`Model/Pinned.lean`, C87), so dangling and misdirected pointers are covered, and as tagged pointers
  under Stacked Borrows (`Model/Borrows.lean`, C96, C97). The latter divides an `Ng` into the fields `rm`, `smwr`
  and the rest, and leaves out the heap memory behind them, to which the raw pointer gives no other
  access than through `rm`. The same is done under Tree Borrows (`Model/TreeBorrows.lean`, C99, C100).
  In the rest of the model the builder's `rm` is a parameter, which C87 justifies.
* Memory allocation failure (C112 says how many elements are enough), stack overflow (deep recursion on nested patterns
  aborts the real process; C64 bounds the depth, C101 says how much stack is enough).
* Third-party crates except by their documented behaviour as used: bitflags 1.x (`contains`, `|`,
  `&`, `!`), bit-vec 0.6 (`push`, `any`, `get`, `cmp`; as a list of booleans
  in `Model/Literal.lean`, as blocks in `Model/BitVecStore.lean`, equal by C91), itertools `izip!`, nom 6 (`tag`, `is_not`,
  `char`, `take`, `delimited`; on characters in `Model/Parser.lean`, on UTF-8 bytes in
  `Model/Bytes.lean`, equal by C89), petgraph 0.5 (`add_node`, `add_edge`, `neighbors_directed`,
  `find_edge`, indexing; as a list of edges in `Model/Graph.lean`, as linked lists in
  `Model/Petgraph.lean`, equal by C90), maplit. The sources of these crates are not in the sandbox.
* `usize` is 64 bits (C102 says what changes at other widths).
* `BoundaryReports`, `DerivedBoundaryReports` (no field is ever used).

## Trusted base

* Lean 4.33.0's kernel (and, for the build, the elaborator only as far as it produces terms the
  kernel checks).
* Axioms: only `propext`, `Classical.choice`, `Quot.sound`, and of those only what
  `#print axioms` shows per theorem (table at the end). Imported besides the core library: single
  modules of `Std` (`Std.Data.String.ToNat`). Only `Spec/Regex.lean`, `Props/Regex.lean` (C124), `Spec/ContextFree.lean`, `Props/ContextFree.lean`
  (C125) and `Props/DebugForm.lean` (C126) import modules of Mathlib (regular expressions, automata, grammars, Myhill-Nerode, finite sets); no model or other proof uses it.
  No axiom is added, no `sorry`, `admit`,
  `native_decide` or `bv_decide`.
* The transcription of Rust into the model (by reading; the code is not executed), including the
  documented behaviour of std and the crates above.
* The specifications in `lean/Verif/Spec/` and the statements in `lean/Verif/Props/` say what the
  English properties say.

## Layout

`Verif/Model` the model; `Verif/Spec` small independent specifications (no reference to model
helpers); `Verif/Proofs` helper lemmas; `Verif/Props` one file per area with the property theorems,
each followed by an `example` showing that its hypotheses are met by a concrete non-trivial case.

## Properties: what is proved and how

Byte sets are specified by their membership test alone: a set *is* the predicate `fun b => s.test b`.

* **C01** full-domain statement over 256 bytes, by kernel evaluation of the whole domain.
* **C02, C03, C09, C11** bit-level lemma `test = bit (n % 64) of word (n / 64)`, then pointwise.
* **C04** case split as in the code; loop lemma by induction on fuel; both profiles.
* **C05** `count` equals the number of bytes satisfying `test` (a count over all 256).
* **C06, C07** least/greatest characterisation; iteration equals the filtered list of all bytes by
  induction on the remaining interval.
* **C08** "exactly n members below the answer"; clearing-lowest-bit lemma by induction.
* **C10** lexicographic order lemmas by induction on word lists.
  `Props/ByteClass.lean` states the same properties for `CharReach`, the class type built on the sets.
* **C12-C15, C17** via "iteration = filtered list of all bytes".
* **C16** false; negation with a witness class in each profile; what the code does compute is proved
  as `_partial`.
* **C18** false for wide types; witness; proved for width 8, and for wide types for values where the
  result stays below 256 (`_partial`).
* **C19-C22** inductions on lists; the equality half of C22 refuted with a witness.
* **C23-C25, C65** histories: lists of calls, invariants by induction.
* **C26** direct.
* **C27, C28** against a declarative spec of "starts with a verb".
* **C29-C35, C37** a stack-machine simulation: parsing the print of a spec tree; soundness by
  reconstructing the spec tree from any accepted run. Errors by depth counting.
* **C36** a walk equals a fold over the explicit event list of the tree, for every visitor (`pre`,
  `during` and `post` methods).
* **C38, C39** denotational semantics of trees and literals.
* **C40** induction over trees; `C40_edges` fixes the edges (those of an empty graph). **C41** false:
  accepts nothing, witness.
* **C42** membership characterisation; initial successors (`C42_initial`); the redirection of accept to
  a fresh vertex as a relation between the surviving successors and the recorded ones
  (`C42_connect_regions_accept`); false part refuted.
* **C43, C44** refinement of the trie to a finite map from strings to report sets; invariant.
* **C45, C46** histories.
* **C47, C48, C50, C57, C65, C66, C69** false in general: witness, plus the part that holds
  (`_partial`).
* **C49, C51-C56, C58, C67, C68** over the whole `compile_multi` pipeline, induction on the list of
  expressions. `C51_defaults` fixes the built-in limits.
* **C59-C61** `describe_char` prefix-freeness by full-domain check plus induction on strings;
  divergence of `describe_range` for every fuel; collision witness. For C61, descriptions are read
  back as lists of items (`Spec/ClassItems.lean`): the text determines the items, and the items stand
  for the bytes of the class except a precisely described run that is left out. `C61_exact_partial`
  then says exactly which classes share a description.
* **C62** simulation of the dump visitor against a spec printer.
* **C63** by cases. **C64** induction on the parse.
* **C70, C71, C77** classes are specified by their maximal runs (`IsRun`, `AreRuns`: unique sorted
  list); the loops of the printer are shown to enumerate them, also when a length limit cuts them off.
* **C72** injectivity of the spec printer by induction on trees (indentation delimits the
  children); refuted across case modes.
* **C73** by following one expression through `ParsedExpression::new`.
* **C74** graph-theoretic characterisation of `all_reports` and `is_vacuous`, then by cases.
* **C75** bit-level laws over all 16-bit values. **C76** an independent reader of class items.
* **C78** a relation between outcomes ("the debug one panics or both are equal") that every function
  taking the profile is shown to respect, through binds, folds, fuelled loops and tree visitors.
* **C79** from the exact characterisations C47, C58, C68, C69, which mention the list of expressions
  only by membership, and for poisoning by counts.
* **C80-C82** languages of grammar trees by structural induction (`Proofs/Patterns.lean`), composed via
  the two directions of C30; letter case also by a simulation of two runs of the parse loop.
* **C83** every printer is a fixed list of write calls followed by a fixed ending (`Proofs/Writes.lean`);
  this is preserved by binds, branches and loops, and for trees follows the walk of C36.
* **C84** the checked transcriptions (`Model/Checked.lean`) are equal to the simple ones, so what is
  proved of the latter holds of the former.
* **C85** induction over the loops with quoted accumulators; bytes by evaluation over all 256.
* **C86** an invariant of every call; end to end via C68.
* **C87** an invariant (each pointer is its own object's address) of every step on memory.
* **C88** from the exact characterisations, as C79; counts of distinct prefixes are monotone.
* **C89** decoding undoes encoding by arithmetic on the ranges; a simulation of the parse loop.
* **C90** (`Props/Petgraph.lean`): petgraph's linked adjacency lists (`Model/Petgraph.lean`) hold the plain list
  of edges of `Model/Graph.lean`. The algorithm of petgraph 0.5 is given from knowledge of that release; its
  source is not in the sandbox.
* **C91** (`Props/BitVecStore.lean`): bit-vec's blocks (`Model/BitVecStore.lean`) hold the list of booleans that
  `Ue2Literal.nocase` is in the rest of the model. As with petgraph, bit-vec 0.6 is given from knowledge of that
  release.
* **C92** (`Props/Stored.lean`): the callers of petgraph and bit-vec on the stored forms (`Model/Stored.lean`) agree with
  the callers on plain lists, so that the theorems about tries, literals and the NFA graph carry over. Two tries "look
  the same" (`Looks`) if root, weights, number of edges and the neighbours found by following the links agree.
* **C93** (`Props/StoredCompiler.lean`): a simulation of the whole compiler on bytes, blocks, linked lists and checked
  arithmetic (`Model/StoredCompiler.lean`) by the compiler of `Model/Compiler.lean`, put together from C89–C92 and the
  checked searches. Every theorem about `compile_multi_int` elsewhere therefore holds of the stored forms too.
* **C94** (`Props/Hashed.lean`): a simulation between the compiler on any lawful hash tables (`Model/Hashed.lean`) and the
  compiler on association lists. `Lawful` states what std documents; Lean's own `Std.HashMap` with any hash functions is
  shown to be lawful.
* **C95** (`Props/AddLiteral.lean`): invariant `NgHas` over sequences of calls on `Ng`, and one step of `add_literal` with
  all of its exits. The history (`taken`) is stated with its own test for mixed case sensitivity.
* **C96, C97** (`Props/Borrows.lean`): the code that touches a boxed `Ng`, written in a monad that keeps the borrow stacks
  of three places and is `none` on undefined behaviour. The invariant `Inv` says what the stacks look like between
  statements: the pointer's shared item is alive (`b = true`) or gone. C96 compares the whole compiler with the plain one; C97
  says when a step is undefined.
* **C98** (`Props/Repaired.lean`, `Props/RepairedText.lean`, `Props/RepairedMore.lean`, `Props/RepairedPointer.lean`): the
  statements refuted in C16, C18, C22, C32, C33, C42, C50, C52, C60, C61, C65, C72, C74, C76, C85, C97 and C100, proved of
  functions with one line changed (C61 and C72: two). C72's full statement had to be restated for this: a class remembers the
  parse mode it was made in, which no dump shows, so trees are compared without these modes.
  `Model/Repaired.lean` and `Model/RepairedPointer.lean` describe code that does **not** exist (as does
  `Model/Completed.lean`, for C106, and `Model/Mended.lean`, for C108); nothing else uses them. It shows that the refuted statements ask for something possible and which line breaks them.
* **C99, C100** (`Props/TreeBorrows.lean`): the same program as for C96 and C97 with borrow trees instead of stacks. Under Tree
  Borrows it matters whether a method that may write does write; an arbitrary function `w` decides it for every call, except
  where the code certainly writes (`registerWrites`). The invariants `Held` and `InvH` describe the trees also in the middle
  of a call, when a pointer is protected.
* **C101** (`Props/CallStack.lean`): the parser and compiler once more in a monad `S` that is given the room left on the call
  stack and gives `none` if a call finds none (`Model/CallStack.lean`). `Needs m o k` says that `m` gives `o` with room for
  `k` calls, `none` or `o` with less, and `none` if `o` is a success; a literal walk that stops at an alternation may need
  less, but then `note_positions` goes all the way. Every context that the parser can be in satisfies `Fits`, an invariant
  which counts the characters read; it gives the bound in terms of the length also for what is dropped after an error.
* **C102** (`Props/PointerWidth.lean`): the parser and compiler with the width of `usize` as a parameter
  (`Model/PointerWidth.lean`), related to the 64-bit ones step by step: contexts are equal but for the offsets on the stack,
  which are both 0 or the same negative number wrapped at each width.
* **C103** (`Props/Work.lean`): the compiler in a counting monad (`Model/Work.lean` says what a step is: turns of loops, calls of
  recursive functions, characters looked at, parts dropped). `C103_same` shows that it still gives what the compiler gives. The
  constant 272 is dominated by the search among the children of a trie node, of which there are at most 256 (`Fan`).
* **C104** (`Props/Aliasing.lean`): the executable rules of `Model/Borrows.lean` and `Model/TreeBorrows.lean` against relational
  descriptions (`Spec/Aliasing.lean`). Not about the code, but about what C96 to C100 mean: without it a slip in the rules could
  go unnoticed where the code does not exercise them.
* **C105** (`Spec/Reference.lean`, `Proofs/Reference.lean`, `Props/Reference.lean`): the outcome of compiling equals that of an
  executable reference program, texts of errors and panics included. It strengthens C58, which leaves the texts of parse errors
  and of panics open.
* **C106** (`Model/Completed.lean`, `Proofs/Glushkov.lean`, `Proofs/Completed.lean`, `Props/Completed.lean`): the step missing
  from `build_graph`, supplied. `Proofs/Glushkov.lean` is Glushkov's construction as predicates on positions, with the language
  of each combination; `Proofs/Completed.lean` shows that passing its lists through the code's `connect_regions` gives those
  predicates and that paths through the finished graph are its runs. Like `Model/Repaired.lean`, `Model/Completed.lean`
  describes code that does **not** exist. The bound on the number of literal characters keeps the number of edges, at most
  the square of the number of vertices, below petgraph's limit of 2^32 - 1.
* **C107** (`Props/SameTree.lean`): which patterns the compiler cannot tell apart.
* **C108** (`Model/Mended.lean`, `Spec/Mended.lean`, `Proofs/Mended.lean`, `Props/Mended.lean`): the refuted statements about
  compiling, all true of one compiler. `Model/Mended.lean` describes code that does **not** exist; its first lines list every
  change, by source line. It shows that the full statements of the partial claims can be met together, and what that takes.
  C48's full statement had to be restated for this: the same bytes compiled twice under one id, or once caseless and once not,
  may share a report, so it speaks of strings no two expressions for which share an id.
* **C109, C110** (`Model/Derived.lean`, `Proofs/Derived.lean`, `Props/Derived.lean`): what the derive macros generate. A derived
  `Debug` is a tree of formatter calls (`Val`); `text` gives what std's `DebugStruct`, `DebugTuple`, `DebugList` and `PadAdapter`
  make of it. `{:?}` texts are read back directly; `{:#?}` texts after dropping line breaks and indentation. std's character
  tables are parameters. As with the other crates, std's and bitflags' code is given from knowledge of it.
* **C111** (`Model/Whole.lean`, `Proofs/Whole.lean`, `Props/Whole.lean`): C93 and C94 together. The model has every stored form
  at once; it is related to the hashed one of C94 (which has plain lists for graphs and literals) step by step as C93 relates its
  model to the plain one, and the result composed with C94, C89 and C105. Pointers, moves and borrows (C87, C96, C97, C99, C100)
  remain separate models.
* **C112** (`Spec/Memory.lean`, `Model/Memory.lean`, `Proofs/Memory*.lean`, `Props/Memory.lean`): the compiler with a counter of
  elements alive and a limit. Each function is shown to give what its plain counterpart gives, to own what its result owns
  (`Uses`, with a rule for what it does not touch), and to depend on the limit only by stopping early (`Tame`). Spare capacity,
  the size of an element, tables' empty slots and what `format!` uses on the way are not counted.
* **C113** (`Props/Settings.lean`): pairs of settings are compared through the reference program of C105; a report limit of 0,
  which `Sane` excludes, by following `add_literal` on a new `Ng`.
* **C114** (`Spec/Builders.lean`, `Props/Builders.lean`): calls are data, and a function makes them one after another. For the report
  manager each call is shown to read and write only its own tables, so that a mixed history is three histories.
* **C115** (`Spec/Express.lean`, `Props/Express.lean`): `words` lists the strings of a tree; `spellOut` writes strings with bars between
  them. The set of strings is an arbitrary predicate, and the characterisation is an equivalence for both profiles.
* **C116** (`Props/Replace.lean`): a group at any place of the text is a node of the tree (balanced texts before a `)` that closes
  nothing in them are equal); then induction over the tree around it.
* **C117** (`Spec/TreeShape.lean`, `Props/TreeShape.lean`): the image of the parser; a pattern is read off from any tree of the shape,
  with the supply of group numbers threaded through.
* **C118** (`Spec/Skeleton.lean`, `Props/Skeleton.lean`): outcomes through the reference program of C105, which looks at nothing else;
  languages by renaming grammar trees.
* **C119** (`Spec/WhichTries.lean`, `Props/WhichTries.lean`): the image of the compiler seen in the two tries: C68 bounds what they hold, and
  the texts of the strings themselves, compiled with and without CASELESS, reach every pair within the bounds.
* **C120** (`Spec/Results.lean`, `Props/Results.lean`): the image of `compile_multi` and `compile`, through the reference program of C105; for
  each result an expression list giving it is built, with empty expressions as padding.
* **C121** (`Model/Finder.lean`, `Spec/Kept.lean`, `Props/Finder.lean`): a scanner over the stored tries and graphs (not code that exists),
  proved against the languages of the expressions, and, for what it cannot find, pairs of expression lists which leave the same state.
* **C122** (`Model/AhoCorasick.lean`, `Props/AhoCorasick.lean`): the automaton the tries are stored for (not code that exists): states,
  reports, cost, and its size for what compiling stores.
* **C123** (`Props/GraphSize.lean`): shape and size of the completed graphs of C106 (not code that exists): no loops but one, the
  greatest number of edges, and patterns of every size that need it.
* **C124** (`Spec/Regex.lean`, `Props/Regex.lean`): the own notions of language (`Lang`) and acceptance (`Accepts`) agree with those
  of Mathlib's `RegularExpression`, `NFA`, `DFA` and `Language.IsRegular`.
* **C125** (`Spec/ContextFree.lean`, `Props/ContextFree.lean`): acceptance in terms of Mathlib's `ContextFreeGrammar` and
  `Language.IsRegular`. 
* **C126** (`Spec/DebugForm.lean`, `Props/DebugForm.lean`): the patterns a debug build accepts, written out without the
  parser, and that they are a regular language. The proof builds the language from quotients and imports Mathlib as C125 does.

## Mutation testing

`seeded/LOG.jsonl` has one line per attempt: a realistic bug is put into one definition of the model in
a scratch copy, everything downstream is rebuilt, and the theorems whose statement or proof fails are
listed. A theorem counts as failed only if it (or something it depends on) no longer checks. A broken
proof does not by itself show that the statement became false: most attempts that break a helper lemma
take down every theorem built on it, and only the survivors were each looked at by hand. Where the
English claim was false and no statement noticed, a theorem was added (`tightened`); a `note` says why
a survivor is harmless.

If Lean runs out of memory or time on a module of the mutated model, that says nothing about its
theorems. Such a module is built again without its `example`s and, if need be, with every evaluation
(`decide +kernel`) replaced by a marker in the scratch copy; theorems left without a verdict are listed
as `undecided`. An earlier version of the log counted them as failed; the 22 attempts concerned were
run again, all other kills stood, and one (`usizeSub`, wrapping replaced by 0) turned out to have
survived the two properties it was meant for, for the reason in its note.

Beside these, edits were made systematically: operators, constants, branches, flags and statements of the model
(and, in part, of the specifications) changed one at a time. The log lists those that compile; `survived: ["all"]` means that no theorem
noticed, and the note says why that is harmless or which theorem was added since.

## Findings (properties the code violates)

1. `push_sequence` computes `ts.len() - self.ptr.len()` with operands swapped: debug builds panic on
   any `(` at non-zero byte offset; release builds report index `2^64 - k` (C32, C33).
2. A non-ASCII character in a pattern panics instead of giving an error (C33).
3. `make_e_callback`/`make_som_relative_callback` ignore their arguments: all literals share one
   internal report (C48).
4. `fill_bitvector` uses `pos & 8` instead of `pos & 7` (C16).
5. The rounding helpers complement the mask at 8 bits before widening (C18).
6. `describe_range` overflows when the range ends at 0xff and is short (C60); `describe_class` drops
   the last range unless it ends at 0xff (C61).
7. `Ue2Literal` equality ignores case sensitivity but ordering does not (C22).
8. `compile_multi` ignores expressions beyond the shortest of its three slices (C50).
9. A SINGLEMATCH conflict panics in debug builds (the error already has an index) and is only
   detected between literal expressions (C57). Its message inverts the statement about the previous
   expression (C65).
10. `min_width` ignores non-literal patterns (C47); no edge is added to the NFA graph for the pattern (C41).
11. `filter_edges` keeps plain epsilons and removes flagged ones, contrary to its comment (C42).
12. The SOM horizon is dropped from the database mode (C52); the runtime engine is always the full
    one, and scanning is a no-op (C53, C54).
13. SOM_LEFTMOST and ALLOWEMPTY have no effect beyond the QUIET check (C66).
14. The global-exhaust flag and the exhaustion keys ignore expressions that are not plain literals
    (C69).
15. `describe_class` panics (debug) or never returns (release) on classes ending in a short run at
    0xff, or whose complement does (C70). Dumps of trees do not separate a caseless letter from the
    upper-case letter (C72). Hexadecimal bytes are padded with a space (C76).
16. A description cut short by the length limit gets its closing bracket twice or, cut after one part,
    a closing bracket without an opening one (C77).
17. `SmallWriteBuild::add_expression` ends in `unimplemented!()` for every graph it does not refuse
    (C74).
18. The small-write builder's pointer to the report manager is made from a shared reference
    (`NonNull::from(&boxed.rm)`). The first literal that is taken changes the report manager through a
    mutable reference, after which following the pointer is undefined behaviour under Stacked Borrows (C97) and under
    Tree Borrows (C100). The compiler never follows it (C96, C99).

## Axioms per theorem

Output of `#print axioms` for every theorem named in `MANIFEST.json`, grouped by the axioms used.

| Axioms | Theorems |
|---|---|
| none | C26_construct, C54_scan, C114_finalize |
| propext | C01_case_tests, C22_false, C26_attach_again, C26_display, C36_pending_panics, C45_poisoned_inert, C45_long_skipped, C53_engine, C65_false, C76_false, C87_pointer, C87_isolated, C87_move, C94_any, C98_graphs_offered_same |
| propext, Quot.sound | C01_tolower, C01_toupper, C01_isalpha, C04_class_range_inverted, C04_set_range_inverted, C05_class_count, C05_count, C09_class_extensional, C09_assign, C09_extensional, C10_class_total_order, C10_total_order, C16_false, C18_false, C18_u8, C18_rounding_partial, C18_fixed, C18_other_n, C19_conversion, C19_min, C20_records, C21_mixed, C22_total_order, C22_order, C36_walk, C37_caseless_flag, C46_case_separation, C59_prefix_free, C59_unambiguous, C60_false, C60_bad_ranges, C60_inverted, C61_items_unique, C63_modes, C67_one_character, C71_text_unique, C74_false, C74_any_order, C76_read_back_partial, C76_forms, C78_graph, C78_arith, C84_case, C84_iterator, C84_literal, C85_char, C86_bounded, C87_defined, C91_limit, C98_literal_eq, C98_describe_range, C98_conflict_message_same, C98_filter_edges, C98_filter_edges_same, C98_describe_char, C98_describe_char_same, C104_read, C104_write, C104_retag, C104_tree, C104_tree_retag, C104_tree_release, C104_tree_forward, C104_tree_reads, C114_sequence, C114_sequence_language, C114_position_flags, C114_report_manager, C115_words |
| propext, Classical.choice, Quot.sound | C01_inverse, C02_class_updates, C02_single_updates, C03_class_updates, C03_class_queries, C03_whole_updates, C03_whole_queries, C04_class_range, C04_set_range, C06_class_first_last, C06_first_last, C07_class_find_next, C07_class_iteration, C07_find_next, C07_iteration, C08_class_find_nth, C08_find_nth, C09_class_pointwise, C09_pointwise, C10_class_order, C10_order, C11_constructors, C11_set_bytes, C11_dot, C11_from_range, C12_predicates, C12_ranges, C13_is_caseless_char, C14_members, C14_least, C14_closure, C15_accepts, C15_empty, C15_tightest, C16_fill_bitvector_partial, C17_display, C17_display_injective, C18_signed_partial, C22_eq_cmp_partial, C23_refines, C23_ids, C23_limit, C23_panics, C24_keys, C24_panics, C25_registration, C25_first_recorded, C26_display_determines, C27_control_verbs, C28_control_verb_effects, C29_accepted_iff_balanced, C29_accepted_is_balanced, C30_parse_print, C30_parse_sound, C31_capture_numbering, C32_unmatched, C32_missing, C32_false, C32_index_partial, C33_false, C33_debug_false, C33_panics_partial, C34_literal_class, C34_every_char, C34_add, C35_plain_characters, C35_only_caseless_matters, C36_once_per_node, C36_code_visitors, C36_parser_trees_finalized, C37_literal, C37_fast_path, C38_literal_language, C38_pattern_language, C39_not_mixed, C40_edges, C40_positions, C41_false, C41_accepts_nothing_partial, C42_initial, C42_connect_successors, C42_connect_regions, C42_false, C42_connect_regions_accept, C43_trie_content, C44_trie_shape, C44_fits, C45_poisoned_iff, C45_defaults, C46_tries_hold, C47_false, C47_min_width_partial, C48_one_report_partial, C48_false, C49_first_bad, C49_reported, C50_false, C50_checked_partial, C50_truncation_partial, C51_counts, C51_length, C51_defaults, C52_false, C52_mode_partial, C53_compiled, C55_compile, C55_compile_iff, C56_quiet_som, C57_false, C57_debug_false, C57_conflicts_partial, C58_outcome, C58_success_iff, C58_compile_multi, C60_describe_range_partial, C61_exact_partial, C61_read_back_partial, C61_equal_descriptions_partial, C61_runs_partial, C61_false, C61_simple_partial, C62_dump_any, C62_tree_dump, C64_size_depth, C65_message_partial, C66_flags_partial, C66_false, C66_no_som, C67_terminates, C68_tries, C68_language, C68_poisoned, C69_false, C69_exhaust_partial, C70_describe_class_fails, C71_class_text, C71_simple_text, C72_false, C72_same_case_partial, C72_sensitive_text_partial, C72_exact_partial, C73_record, C74_all_reports, C74_vacuous, C74_add_expression_partial, C75_flags, C75_independent, C75_parse_mode, C77_no_limit, C77_limit_fails, C77_limit_text, C77_text_unique, C78_parse, C78_compile, C78_compiled_state, C78_dump, C78_byte_sets, C79_success, C79_sublist, C79_state, C79_poisoned, C80_union, C80_group, C80_group_star, C80_concat, C80_groups, C81_acceptance, C81_closure, C81_pattern_case, C82_language, C83_class, C83_class_int, C83_tree, C83_parsed_tree, C83_failed_dump, C84_bitfield, C84_charreach, C84_describe, C84_trie, C85_false, C85_class_int, C85_class_partial, C85_class_exact_partial, C85_dot_string, C86_compiled, C88_success, C88_state, C89_utf8, C89_split, C89_control_verbs, C89_step, C89_parse, C89_every_str, C90_changes, C90_neighbors, C90_find, C91_flags, C91_order, C92_literal, C92_build, C92_new_graph, C92_graph, C93_ng, C93_compile, C93_str, C93_graph, C93_state, C94_reports, C94_compile, C94_deterministic, C94_ng, C94_state, C94_add_expression, C95_state, C95_registered, C95_answer, C96_compile, C97_pointer_partial, C97_drop, C97_false, C98_fill_bitvector, C98_rounding, C98_conflict_message, C98_parse_no_panic, C98_parse_same, C98_parse_index, C98_lengths, C98_mode, C98_tree_dump, C98_dumps, C98_dot, C98_dot_text_same, C98_graphs_offered_exact, C98_graphs_offered, C98_pointer_stacked, C98_pointer_drop_stacked, C98_pointer_compile_stacked, C98_pointer_tree, C98_pointer_drop_tree, C98_pointer_compile_tree, C98_range_text, C98_describe_class, C98_descriptions_of_mode, C98_descriptions, C99_compile, C100_pointer_partial, C100_drop, C100_false, C100_writes, C101_enough, C101_default, C101_exact, C101_nesting, C101_extremes, C101_overflow, C101_refused, C101_recursions, C102_widths, C102_same_databases, C102_index, C103_same, C103_linear, C103_at_least, C103_parse, C103_tree, C103_graph, C103_literal, C103_trie, C103_looked, C105_reference, C105_public, C105_read, C105_as_run, C106_language, C106_vertices, C106_vacuous, C107_same_tree, C107_same_compile, C108_reference, C108_no_panic, C108_success_iff, C108_refuses_more, C108_min_width, C108_reports, C108_ids, C108_conflicts, C108_som, C108_allowempty, C108_som_honoured, C108_exhaust, C108_checked, C108_mode, C108_graphs, C109_error, C109_error_text, C109_one_line, C109_set, C109_class, C109_depth, C109_output, C109_mode, C109_tree, C109_flags, C109_position_flags, C109_flags_text, C110_hash, C111_ng, C111_compile, C111_str, C111_reference, C111_graph, C111_state, C111_add_expression, C112_enough, C112_no_leak, C112_needed, C112_raised, C112_message, C112_default, C112_parse, C112_graph, C113_depends, C113_larger_limits, C113_no_literals, C113_monotone, C113_no_reports, C113_nothing_recorded, C114_graph_builder, C115_spelled, C115_languages, C115_no_groups, C115_closed, C116_replace, C116_monotone, C117_trees, C117_no_groups, C118_compile, C118_parse, C118_language, C119_tries, C120_compile_multi, C120_compile, C121_literals, C121_mended, C121_small, C121_mended_small, C121_complete, C121_lost, C121_short_findable, C121_long_unfindable, C121_others_unfindable, C121_ids_unfindable, C122_state, C122_reports, C122_cost, C122_minimal, C122_literals, C122_not_minimal, C123_order, C123_edges, C123_worst, C124_language, C124_finite, C124_graph, C124_completed, C124_trie, C125_context_free, C125_not_regular, C126_form, C126_regular, C126_two_groups |
