import Verif.Model.Compiler
/-! # How much work compiling is

The compiler once more, counting its steps.  A step is a turn of a loop whose number of turns depends on the input, a call of
one of the functions that recurse over trees, a character looked at or copied, a value dropped that is an element of a
collection or a part of a tree, or an expression added.  Everything else between two steps takes bounded time: arithmetic,
operations on byte classes (which have four words), moving a value, and one operation on a vector, a hash table or a graph
(as usual for these, reallocation and rehashing are spread over the insertions, and a hash table is taken not to degenerate).
Allocation and the length of numbers in messages are not counted. -/
namespace Rescan.Work

variable {ε α β σ : Type}

/-- A run of the code (no Rust counterpart): what comes out and the number of steps. -/
def W (ε α : Type) : Type := Outcome ε α × Nat

/-- Doing one thing after the other (no Rust counterpart). -/
def W.bind (m : W ε α) (f : α → W ε β) : W ε β :=
  match m with
  | (.ok a, n) => ((f a).1, n + (f a).2)
  | (.err e, n) => (.err e, n)
  | (.panic s, n) => (.panic s, n)
  | (.timeout, n) => (.timeout, n)

instance : Monad (W ε) where
  pure a := (.ok a, 0)
  bind := W.bind

/-- Code that takes no steps. -/
def ret (o : Outcome ε α) : W ε α := (o, 0)

/-- `n` steps besides those of `m`. -/
def steps (n : Nat) (m : W ε α) : W ε α := (m.1, m.2 + n)

/-- Code that takes no steps and looks at what came out of `m`. -/
def thenDo {δ : Type} (m : W ε α) (f : Outcome ε α → W δ β) : W δ β := ((f m.1).1, m.2 + (f m.1).2)

/-! ## src/parser/component*.rs -/

mutual
/-- src/parser/component.rs:39-48 `walk_component` (a class is walked by src/parser/component_class.rs:54-61
`walk_component_class`, which calls src/parser/ascii_component_class.rs:36-44 `walk_ascii_component_class`). -/
def walkComponent (p : Profile) (v : Visitor ε σ) (s : σ) : Component → W ε σ
  | .alternation c => steps 1 (walkComponentAlternation p v s c)
  | .cls c => steps 3 (ret (walkComponentClass v s c))
  | .sequence c => steps 1 (walkComponentSequence p v s c)
/-- src/parser/component_alternation.rs:22-40 `walk_component_alternation`. -/
def walkComponentAlternation (p : Profile) (v : Visitor ε σ) (s : σ) : ComponentAlternation → W ε σ
  | .mk children => steps 1 do
    let s ← ret (v.preComponentAlternation s (.mk children))
    let s ← walkSequences p v s (.mk children) children
    ret (v.postComponentAlternation s (.mk children))
/-- src/parser/component_sequence.rs:54-74 `walk_component_sequence`. -/
def walkComponentSequence (p : Profile) (v : Visitor ε σ) (s : σ) : ComponentSequence → W ε σ
  | .mk children alternation ci cn => steps 1 do
    ret (rdebugAssert p alternation.isNone "assertion failed: c.alternation.is_none()")
    let s ← ret (v.preComponentSequence s (.mk children alternation ci cn))
    let s ← walkComponents p v s (.mk children alternation ci cn) children
    ret (v.postComponentSequence s (.mk children alternation ci cn))
/-- The loop src/parser/component_alternation.rs:27-35. -/
def walkSequences (p : Profile) (v : Visitor ε σ) (s : σ) (c : ComponentAlternation) : List ComponentSequence → W ε σ
  | [] => ret (.ok s)
  | child :: rest => do
    let s ← walkComponentSequence p v s child
    let s ← ret (if !rest.isEmpty then v.duringComponentAlternation s c else .ok s)
    walkSequences p v s c rest
/-- The loop src/parser/component_sequence.rs:61-69. -/
def walkComponents (p : Profile) (v : Visitor ε σ) (s : σ) (c : ComponentSequence) : List Component → W ε σ
  | [] => ret (.ok s)
  | child :: rest => do
    let s ← walkComponent p v s child
    let s ← ret (if !rest.isEmpty then v.duringComponentSequence s c else .ok s)
    walkComponents p v s c rest
end

mutual
/-- src/parser/component.rs:17-23 `note_positions`, with the methods it calls: src/parser/component_alternation.rs:15-19,
src/parser/component_class.rs:46-50 and src/parser/ascii_component_class.rs:28-33. -/
def noteComponent (bs : GlushkovBuildState) : Component → W ε GlushkovBuildState
  | .alternation (.mk children) => steps 2 (noteSequences bs children)
  | .cls (.ascii c) => steps 3 (ret (bs.noteClass c))
  | .sequence c => steps 1 (noteSequence bs c)
/-- src/parser/component_sequence.rs:42-46 `note_positions`. -/
def noteSequence (bs : GlushkovBuildState) : ComponentSequence → W ε GlushkovBuildState
  | .mk children _ _ _ => steps 1 (noteComponents bs children)
/-- The loop src/parser/component_alternation.rs:16-18. -/
def noteSequences (bs : GlushkovBuildState) : List ComponentSequence → W ε GlushkovBuildState
  | [] => ret (.ok bs)
  | c :: cs => do
    let bs ← noteSequence bs c
    noteSequences bs cs
/-- The loop src/parser/component_sequence.rs:43-45. -/
def noteComponents (bs : GlushkovBuildState) : List Component → W ε GlushkovBuildState
  | [] => ret (.ok bs)
  | c :: cs => do
    let bs ← noteComponent bs c
    noteComponents bs cs
end

mutual
/-- src/parser/component.rs:9-13: the steps of dropping a `Component`. -/
def dropComponent : Component → Nat
  | .alternation (.mk children) => 2 + dropSequences children
  | .cls _ => 1
  | .sequence c => 1 + dropSequence c
/-- src/parser/component_sequence.rs:7-14: the steps of dropping a `ComponentSequence`. -/
def dropSequence : ComponentSequence → Nat
  | .mk children none _ _ => 1 + dropComponents children
  | .mk children (some (.mk alternatives)) _ _ => 1 + dropComponents children + (1 + dropSequences alternatives)
/-- src/parser/component_alternation.rs:6: the steps of dropping a `Vec<ComponentSequence>`. -/
def dropSequences : List ComponentSequence → Nat
  | [] => 0
  | c :: cs => dropSequence c + dropSequences cs
/-- src/parser/component_sequence.rs:8: the steps of dropping a `Vec<Component>`. -/
def dropComponents : List Component → Nat
  | [] => 0
  | c :: cs => dropComponent c + dropComponents cs
end

/-! ## src/parser/control_verbs.rs, src/parser.rs -/

/-- src/parser/control_verbs.rs:12-50 `read_control_verbs`: the characters of a verb are looked at once to find its end
(`is_not`), and copied into the message if it is refused; comparing it with a fixed string is one step each (17 strings). -/
def readControlVerbs (input : Str) (start : Nat) (mode : ParseMode) : W CompileError (Str × ParseMode) :=
  let seen := match input with
    | '(' :: '*' :: rest => (rest.takeWhile (fun c => c != ')')).length
    | _ => 0
  match Rescan.readControlVerbs input start mode with
  | .err e => steps (18 + seen + seen) (ret (.err e))
  | r => steps (18 + seen) (ret r)

/-- src/parser.rs:73: the steps of dropping the stack of sequences. -/
def dropStates : List ExprState → Nat
  | [] => 0
  | v :: rest => 1 + dropSequence v.seq + dropStates rest

/-- src/parser.rs:62-78: the steps of dropping a `Context`. -/
def dropContext (c : Context) : Nat := dropStates c.sequences + dropSequence c.currentSeq

/-- src/parser.rs:153-155: the loop of `Context::parse`.  If `main` returns an error or panics the `Context`, which
`parse` owns, is dropped. -/
def mainLoop (pr : Profile) : Nat → Context → W CompileError Context
  | fuel, self =>
    if self.p.isEmpty then ret (.ok self)
    else match fuel with
      | 0 => ret .timeout
      | fuel + 1 =>
        match self.main pr self.p with
        | .ok self => steps 1 (mainLoop pr fuel self)
        | r => steps (1 + dropContext self) (ret r)

/-- src/parser.rs:157-170: what `parse` does after the loop. -/
def finish (self : Context) : W CompileError ComponentSequence :=
  match self.finish with
  | .ok c => ret (.ok c)
  | r => steps (dropContext self) (ret r)

/-- src/parser.rs:174-180 `parse`, with `Context::parse` (152-171). -/
def parse (pr : Profile) (ptr : Str) (globalMode : ParseMode) : W CompileError (Component × ParseMode) := do
  let (p, globalMode) ← readControlVerbs ptr 0 globalMode
  let c ← mainLoop pr p.length (Context.new ptr p globalMode)
  let rootSeq ← finish c
  return (.sequence rootSeq, globalMode)

/-! ## src/smallwrite/smallwrite_build.rs -/

/-- src/smallwrite/smallwrite_build.rs:164-167: how many neighbours `find` looks at. -/
def looked (t : LitTrie) (u : Nat) (c : U8) : List Nat → Nat
  | [] => 0
  | v :: vs =>
    match t.inner.nodes[v]? with
    | some w => if w.c == c then 1 else 1 + looked t u c vs
    | none => 1 + looked t u c vs

/-- src/smallwrite/smallwrite_build.rs:163-173: the loop of `add_to_trie`. -/
def descendAll : List U8 → LitTrie × Nat → W ε (LitTrie × Nat)
  | [], st => ret (.ok st)
  | c :: cs, st => do
    let st' ← steps (1 + looked st.1 st.2 c (st.1.inner.outgoing st.2)) (ret (LitTrie.descend st c))
    descendAll cs st'

/-- src/smallwrite/smallwrite_build.rs:161-178 `add_to_trie`. -/
def addToTrie (literal : Ue2Literal) (report : Nat) (t : LitTrie) : W ε (LitTrie × Bool) := do
  let (t, u) ← descendAll (literal.iter.map (fun e => e.c)) (t, t.root)
  if u < t.inner.nodes.length then
    let nodes := t.inner.nodes.modify u (fun v => { v with reports := setInsert v.reports report })
    return ({ t with inner := { t.inner with nodes := nodes } },
      decide (nodes.length ≤ maxTrieVertices))
  else ret (.panic "index out of bounds")

/-- src/smallwrite/smallwrite_build.rs:132-158 `add_literal`; `any_nocase` is one step for each byte (bit-vec looks at 32
flags at a time). -/
def smallAddLiteral (sw : SmallWriteBuild) (literal : Ue2Literal) (r : Nat) : W ε SmallWriteBuild :=
  if sw.poisoned then ret (.ok sw)
  else if literal.len > sw.grey.smallWriteLargestBuffer then ret (.ok sw)
  else
    let sw := { sw with numLiterals := sw.numLiterals + 1 }
    if sw.numLiterals > sw.grey.smallWriteMaxLiterals then ret (.ok { sw with poisoned := true })
    else steps literal.len <|
      if literal.anyNocase then do
        let (t, fits) ← addToTrie literal r sw.litTrieNocase
        return { sw with litTrieNocase := t, poisoned := !fits }
      else do
        let (t, fits) ← addToTrie literal r sw.litTrie
        return { sw with litTrie := t, poisoned := !fits }

/-! ## src/nfagraph/ng.rs -/

/-- src/nfagraph/ng.rs:67-130 `add_literal`: `mixed_sensitivity` looks at every byte. -/
def ngAddLiteral (p : Profile) (ng : Ng) (literal : Ue2Literal) (exprIndex externalReport : Nat)
    (highlander : Bool) (som : SomType) (quiet : Bool) : W CompileError (Ng × Bool) := do
  ret (rdebugAssert p (!literal.isEmpty) "assertion failed: !literal.is_empty()")
  if !ng.cc.grey.shortcutLiterals then return (ng, false)
  else
    steps literal.len <|
    if mixedSensitivity literal.iter then return (ng, false)
    else
      match ng.rm.registerExtReport externalReport ⟨highlander, exprIndex⟩ with
      | (_, .error e) => ret (.err e)
      | (rm, .ok ()) => do
        let (rm, rose, id) ← ret (show Res (ReportManager × RoseBuild × Except CompileError Nat) from
          match som with
          | .none => do
            let (rm, ekey) ← (show Res (ReportManager × Option Nat) from
              if highlander then do
                let (rm, k) ← rm.getExhaustibleKey externalReport
                return (rm, some k)
              else return (rm, none))
            let r := makeECallback externalReport 0 ekey quiet
            let (rm, id) ← Ng.lift (rm.getInternalId r)
            return (rm, ng.rose, id)
          | _ => do
            rdebugAssert p (!highlander) "assertion failed: !highlander"
            let r := makeSomRelativeCallback externalReport 0 literal.len
            let (rm, id) ← Ng.lift (rm.getInternalId r)
            return (rm, { ng.rose with hasSom := true }, id))
        match id with
        | .error e => ret (.err e)
        | .ok id =>
          let rose := rose.add false false literal [id]
          match Depth.tryFrom literal.len with
          | none => ret (.err (CompileError.new .other "depth overflow"))
          | some d => do
            let smwr ← smallAddLiteral ng.smwr literal id
            return ({ ng with minWidth := Depth.min ng.minWidth d, rm := rm, rose := rose,
                              smwr := smwr }, true)

/-! ## src/parser/shortcut_literal.rs, src/compiler.rs, src/lib.rs -/

/-- src/parser/shortcut_literal.rs:55-86 `shortcut_literal`. -/
def shortcutLiteral (p : Profile) (ng : Ng) (pe : ParsedExpression) : W CompileError (Ng × Bool) :=
  if !ng.cc.grey.allowLiteral then ret (.ok (ng, false))
  else thenDo (walkComponent p constructLiteralVisitor Ue2Literal.default pe.component) fun
    | .err _ => ret (.ok (ng, false))
    | .panic m => ret (.panic m)
    | .timeout => ret .timeout
    | .ok lit =>
      if lit.isEmpty then ret (.ok (ng, false))
      else do
        let index ← ret (ReportManager.toU32 pe.expr.index
          "called `Result::unwrap()` on an `Err` value: TryFromIntError(())")
        ngAddLiteral p ng lit index pe.expr.report pe.expr.highlander pe.expr.som pe.expr.quiet

/-- src/compiler.rs:22-52 `ParsedExpression::new`. -/
def parsedNew (p : Profile) (index : Nat) (expression : Str) (flags : Flags) (id : Nat) :
    W CompileError ParsedExpression :=
  let expr : ExpressionInfo :=
    { index := index, report := id, allowVacuous := false,
      highlander := flags.contains .SINGLEMATCH, utf8 := false,
      prefilter := flags.contains .PREFILTER, som := .none, quiet := flags.contains .QUIET }
  if flags.contains (Flags.QUIET.or .SOM_LEFTMOST) then
    ret (.err (CompileError.new .other "QUIET is not supported in combination with SOM_LEFTMOST."))
  else do
    let flags := flags.and Flags.QUIET.not
    let mode := ParseMode.new flags
    let (component, mode) ← parse p expression mode
    return ⟨{ expr with utf8 := mode.utf8 }, component⟩

/-- src/compiler.rs:115-124 `build_graph`. -/
def buildGraph (p : Profile) (pe : ParsedExpression) : W ε NfaBuilder := do
  let builder ← ret (NfaBuilder.new pe.expr)
  let bs ← ret (GlushkovBuildState.new p builder)
  let bs ← noteComponent bs pe.component
  return bs.builder

/-- src/nfagraph/ng_holder.rs:24, src/smallwrite/smallwrite_build.rs:46: the steps of dropping a petgraph graph. -/
def dropGraph {N : Type} (g : Graph N) : Nat := g.nodes.length + g.edges.length

/-- src/compiler.rs:60-99 `add_expression`: the graph is dropped, and the parsed expression, however the end is reached. -/
def addExpression (p : Profile) (ng : Ng) (index : Nat) (expression : Str) (flags : Flags) (id : Nat) :
    W CompileError Ng :=
  if utf8Len expression > ng.cc.grey.limitPatternLength then
    ret (.err (CompileError.new .other "Pattern length exceeds limit."))
  else do
    let pe ← parsedNew p index expression flags id
    let pe := if pe.expr.prefilter then { pe with component := prefilterTree pe.component } else pe
    steps (dropComponent pe.component) do
      let (ng, done) ← shortcutLiteral p ng pe
      if done then return ng
      else
        let built ← buildGraph p pe
        steps (dropGraph built.graph.inner) (return ng.addGraph built.expr built.graph)

/-- src/smallwrite/smallwrite_build.rs:14-19, 45-49: the steps of dropping a trie, with the reports at its nodes. -/
def dropTrie (t : LitTrie) : Nat := dropGraph t.inner + (t.inner.nodes.map (fun v => v.reports.length)).sum

/-- src/nfagraph/ng.rs:17-31: the steps of dropping the `Ng`. -/
def dropNg (ng : Ng) : Nat :=
  ng.rm.reportIds.length + ng.rm.reportIdToInternalMap.length + ng.rm.externalIdMap.length +
    ng.rm.toExhaustibleKeyMap.length + dropTrie ng.smwr.litTrie + dropTrie ng.smwr.litTrieNocase

/-- src/lib.rs:124-132: the loop of `compile_multi_int`, starting at index `i`, and `build`.  However it ends, the `Ng` is
dropped; what `add_expression` did to it before an error or a panic is left out of that, as it adds nothing to
it but entries for one expression. -/
def addAll (p : Profile) : Nat → Ng → List (Str × Flags × Nat) → W CompileError Ng
  | _, ng, [] => steps (dropNg ng) (ret (.ok ng))
  | i, ng, (exp, fl, id) :: rest =>
    thenDo (steps 1 (addExpression p ng i exp fl id)) fun
    | .ok ng => addAll p (i + 1) ng rest
    | .panic m => steps (dropNg ng) (ret (.panic m))
    | .timeout => ret .timeout
    | .err e => steps (dropNg ng) (ret do
      let idx ← ReportManager.toU32 i
        "called `Result::unwrap()` on an `Err` value: TryFromIntError(())"
      let e ← e.setExpressionIndex p idx
      .err e)

/-- src/lib.rs:96-132 `compile_multi_int`. -/
def compileMultiInt (p : Profile) (expressions : List Str) (flags : List Flags) (ids : List Nat) (mode : Mode)
    (g : Grey) : W CompileError Database :=
  if expressions.isEmpty then
    ret (.err (CompileError.new .other "Invalid parameter: expressions is empty"))
  else if expressions.length > g.limitPatternCount then
    ret (.err (CompileError.new .other "Number of patterns too large"))
  else do
    let ng := Ng.new ⟨mode.isStreaming, mode.isVectored, g⟩ expressions.length mode.somPrecision
    let ng ← addAll p 0 ng (izip expressions flags ids)
    return build ng

end Rescan.Work
