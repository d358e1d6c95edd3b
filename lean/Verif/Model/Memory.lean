import Verif.Spec.Memory
/-! # Compiling with limited memory

The compiler once more, with a limit on the number of elements (see `Spec/Memory.lean`) that are alive at once.  Allocating
beyond the limit ends the process (`none`); giving back more than there is cannot happen, and would give `none` as well.
Every element is counted when it is put into its collection and until the collection is dropped, or the element is popped or
moved into another collection, also while a panic unwinds; what the panic itself allocates is not counted. -/
namespace Rescan.Memory

open Rescan.Spec

variable {ε δ α β : Type}

/-- A run of the code (no Rust counterpart): from the limit and the number of elements alive, what comes out and the number of
elements alive then, or nothing if memory ran out. -/
def H (ε α : Type) : Type := Nat → Nat → Option (Outcome ε α × Nat)

/-- Doing one thing after the other (no Rust counterpart). -/
def H.bind (m : H ε α) (f : α → H ε β) : H ε β := fun lim live =>
  match m lim live with
  | none => none
  | some (.ok a, l) => f a lim l
  | some (.err e, l) => some (.err e, l)
  | some (.panic s, l) => some (.panic s, l)
  | some (.timeout, l) => some (.timeout, l)

instance : Monad (H ε) where
  pure a := fun _ live => some (.ok a, live)
  bind := H.bind

/-- Code that allocates and frees nothing. -/
def ret (o : Outcome ε α) : H ε α := fun _ live => some (o, live)

/-- `n` more elements. -/
def alloc (n : Nat) : H ε Unit := fun lim live => if live + n ≤ lim then some (.ok (), live + n) else none

/-- `n` elements fewer. -/
def free (n : Nat) : H ε Unit := fun _ live => if n ≤ live then some (.ok (), live - n) else none

/-- Making an error, with its message, and returning it. -/
def fail (e : CompileError) : H CompileError α := do
  alloc (ownedError e)
  ret (.err e)

/-- Code that looks at what came out of `m`. -/
def thenDo (m : H ε α) (f : Outcome ε α → H δ β) : H δ β := fun lim live =>
  match m lim live with
  | none => none
  | some (o, l) => f o lim l

/-- `n` elements are given back if `m` returns an error or panics. -/
def onError (n : Nat) (m : H ε α) : H ε α := thenDo m fun
  | .err e => do free n; ret (.err e)
  | .panic t => do free n; ret (.panic t)
  | o => ret o

/-- `n` elements are given back when `m` returns or panics. -/
def dropAfter (n : Nat) (m : H ε α) : H ε α := thenDo m fun
  | .ok a => do free n; ret (.ok a)
  | .err e => do free n; ret (.err e)
  | .panic t => do free n; ret (.panic t)
  | .timeout => ret .timeout

/-! ## src/parser.rs -/

/-- src/parser/component_sequence.rs:28-35 `finalize`: a sequence is appended to the alternation (23-25), which is pushed. -/
def finalize (s : ComponentSequence) : H ε ComponentSequence :=
  match s.alternation with
  | none => return s
  | some _ => do
    alloc 1
    alloc 1
    return s.finalize

/-- src/parser/control_verbs.rs:12-50 `read_control_verbs`: only the messages are allocated. -/
def readControlVerbs (input : Str) (start : Nat) (mode : ParseMode) : H CompileError (Str × ParseMode) :=
  match Rescan.readControlVerbs input start mode with
  | .err e => fail e
  | r => ret r

/-- src/parser.rs:73: the stack of sequences. -/
def ownedStates : List ExprState → Nat
  | [] => 0
  | v :: rest => 1 + ownedSequence v.seq + ownedStates rest

/-- src/parser.rs:62-78: what a `Context` owns. -/
def ownedContext (c : Context) : Nat := ownedStates c.sequences + ownedSequence c.currentSeq

/-- src/parser.rs:129-150 `main`, with `push_sequence` (95-102) and `pop_sequence` (104-118). -/
def main (pr : Profile) (self : Context) (ts : Str) : H CompileError Context :=
  match ts with
  | '(' :: p => do
    let self ← ret (self.pushSequence pr ts)
    alloc 1
    return { self with p := p }
  | ')' :: p =>
    match self.sequences with
    | [] => fail (CompileError.new .locatedParse "Unmatched parentheses")
    | v :: rest => do
      free 1
      let seq ← finalize self.currentSeq
      alloc 1
      return { self with sequences := rest, currentSeq := v.seq.addComponent (.sequence seq), mode := v.mode, p := p }
  | '|' :: p => do
    alloc 1
    return { self with currentSeq := self.currentSeq.addAlternation, p := p }
  | c :: p => do
    ret (rassert (decide (c.toNat < 128)) "assertion failed: c.is_ascii()")
    match Rescan.addLiteral self.currentSeq c self.mode with
    | .err e => do
      let idx ← ret (Context.usizeSub pr self.ptrLen (utf8Len self.p))
      fail { e with reason := e.reason ++ " at index " ++ toString idx }
    | .panic m => ret (.panic m)
    | .timeout => ret .timeout
    | .ok seq => do
      alloc 1
      return { self with currentSeq := seq, p := p }
  | [] => return self

/-- src/parser.rs:153-155: the loop of `Context::parse`; if `main` returns an error or panics the `Context`, which `parse` owns,
is dropped. -/
def mainLoop (pr : Profile) : Nat → Context → H CompileError Context
  | fuel, self =>
    if self.p.isEmpty then return self
    else match fuel with
      | 0 => ret .timeout
      | fuel + 1 => do
        let self ← onError (ownedContext self) (main pr self self.p)
        mainLoop pr fuel self

/-- src/parser.rs:157-170: what `parse` does after the loop. -/
def finish (self : Context) : H CompileError ComponentSequence :=
  match self.sequences with
  | seq :: _ => onError (ownedContext self) (fail (CompileError.new .parse
      ("Missing close parenthesis for group started at index " ++ toString seq.offset ++ ".")))
  | [] => finalize self.currentSeq

/-- src/parser.rs:174-180 `parse`, with `Context::parse` (152-171). -/
def parse (pr : Profile) (ptr : Str) (globalMode : ParseMode) : H CompileError (Component × ParseMode) := do
  let (p, globalMode) ← readControlVerbs ptr 0 globalMode
  let c ← mainLoop pr p.length (Context.new ptr p globalMode)
  let rootSeq ← finish c
  return (.sequence rootSeq, globalMode)

/-! ## src/parser/shortcut_literal.rs: the literal -/

/-- src/parser/shortcut_literal.rs:21-34 `pre_ascii_component_class`: a byte is pushed, and every 32nd time a block of flags; if
there is an error or a panic the visitor is dropped. -/
def preLiteralClass (lit : Ue2Literal) (c : AsciiComponentClass) : H NotLiteral Ue2Literal :=
  match Rescan.preLiteralClass lit c with
  | .ok l => do
    if lit.nocase.length % 32 = 0 then alloc 1
    alloc 1
    return l
  | .err e => do
    free (ownedLiteral lit)
    ret (.err e)
  | .panic t => do
    free (ownedLiteral lit)
    ret (.panic t)
  | .timeout => ret .timeout

mutual
/-- src/parser/component.rs:39-48 `walk_component` with `ConstructLiteralVisitor` (src/parser/shortcut_literal.rs:13-52), which
is dropped if there is an error or a panic. -/
def walkComponent (p : Profile) (lit : Ue2Literal) : Component → H NotLiteral Ue2Literal
  | .alternation _ => do
    free (ownedLiteral lit)
    ret (.err .mk)
  | .cls (.ascii c) => preLiteralClass lit c
  | .sequence c => walkSequence p lit c
/-- src/parser/component_sequence.rs:54-74 `walk_component_sequence`. -/
def walkSequence (p : Profile) (lit : Ue2Literal) : ComponentSequence → H NotLiteral Ue2Literal
  | .mk children alternation _ _ => do
    onError (ownedLiteral lit) (ret (rdebugAssert p alternation.isNone "assertion failed: c.alternation.is_none()"))
    walkComponents p lit children
/-- The loop src/parser/component_sequence.rs:61-69. -/
def walkComponents (p : Profile) (lit : Ue2Literal) : List Component → H NotLiteral Ue2Literal
  | [] => return lit
  | child :: rest => do
    let lit ← walkComponent p lit child
    walkComponents p lit rest
end

/-! ## src/smallwrite/smallwrite_build.rs -/

/-- src/smallwrite/smallwrite_build.rs:163-173: a turn of the loop of `add_to_trie`: a vertex and an edge, if there is none.
The vertex is dropped, with the trie, if the edge cannot be added. -/
def descend (st : LitTrie × Nat) (c : U8) : H ε (LitTrie × Nat) :=
  let (t, u) := st
  match t.findChild u c with
  | some v => return (t, v)
  | none => do
    let (g, next) ← ret (t.inner.addNode ⟨c, []⟩)
    alloc 1
    let g ← onError 1 (ret (g.addEdge u next))
    alloc 1
    return ({ t with inner := g }, next)

/-- src/smallwrite/smallwrite_build.rs:163-173: the loop of `add_to_trie`.  If it panics, what a turn has added is dropped with the
trie. -/
def descendAll : List U8 → LitTrie × Nat → H ε (LitTrie × Nat)
  | [], st => return st
  | c :: cs, st => do
    let st' ← descend st c
    onError (ownedTrie st'.1 - ownedTrie st.1) (descendAll cs st')

/-- src/smallwrite/smallwrite_build.rs:161-178 `add_to_trie`. -/
def addToTrie (literal : Ue2Literal) (report : Nat) (t : LitTrie) : H ε (LitTrie × Bool) := do
  let old := t
  let (t, u) ← descendAll (literal.iter.map (fun e => e.c)) (t, t.root)
  match t.inner.nodes[u]? with
  | none => onError (ownedTrie t - ownedTrie old) (ret (.panic "index out of bounds"))
  | some v => do
    if !v.reports.contains report then alloc 1
    let nodes := t.inner.nodes.modify u (fun v => { v with reports := setInsert v.reports report })
    return ({ t with inner := { t.inner with nodes := nodes } }, decide (nodes.length ≤ maxTrieVertices))

/-- src/smallwrite/smallwrite_build.rs:132-158 `add_literal`. -/
def smallAddLiteral (sw : SmallWriteBuild) (literal : Ue2Literal) (r : Nat) : H ε SmallWriteBuild :=
  if sw.poisoned then return sw
  else if literal.len > sw.grey.smallWriteLargestBuffer then return sw
  else
    let sw := { sw with numLiterals := sw.numLiterals + 1 }
    if sw.numLiterals > sw.grey.smallWriteMaxLiterals then return { sw with poisoned := true }
    else if literal.anyNocase then do
      let (t, fits) ← addToTrie literal r sw.litTrieNocase
      return { sw with litTrieNocase := t, poisoned := !fits }
    else do
      let (t, fits) ← addToTrie literal r sw.litTrie
      return { sw with litTrie := t, poisoned := !fits }

/-! ## src/util/report_manager.rs, src/nfagraph/ng.rs -/

/-- src/util/report_manager.rs:92-131 `register_ext_report`: an entry, or a message. -/
def registerExtReport (rm : ReportManager) (id : Nat) (ext : ExternalReportInfo) : H CompileError ReportManager :=
  match rm.registerExtReport id ext with
  | (_, .error e) => fail e
  | (rm', .ok ()) => do
    if (alookup rm.externalIdMap id).isNone then alloc 1
    return rm'

/-- src/util/report_manager.rs:139-146 `get_exhaustible_key`: an entry, if there is none.  After a panic the `Ng` is dropped; what
was added to its report manager since `old` goes here. -/
def getExhaustibleKey (old : ReportManager) (rm : ReportManager) (a : Nat) : H ε (ReportManager × Nat) := do
  let (rm', k) ← onError (ownedReports rm - ownedReports old) (ret (rm.getExhaustibleKey a))
  if (alookup rm.toExhaustibleKeyMap (a : Int)).isNone then alloc 1
  return (rm', k)

/-- src/util/report_manager.rs:56-74 `get_internal_id`: a report in the vector and one in the map, or a message.  The error is
the caller's; the `Ng` goes with it, and what was added to its report manager since `old` goes here. -/
def getInternalId (old : ReportManager) (rm : ReportManager) (r : Report) : H CompileError (ReportManager × Nat) := do
  match ← onError (ownedReports rm - ownedReports old) (ret (Ng.lift (rm.getInternalId r))) with
  | (_, .error e) => onError (ownedReports rm - ownedReports old) (fail e)
  | (rm', .ok id) => do
    if (alookup rm.reportIdToInternalMap r).isNone then
      alloc 1
      alloc 1
    return (rm', id)

/-- src/nfagraph/ng.rs:67-130 `add_literal`.  After an error or a panic the caller drops the `Ng`; what was added to it in this
call is given back here. -/
def ngAddLiteral (p : Profile) (ng : Ng) (literal : Ue2Literal) (exprIndex externalReport : Nat)
    (highlander : Bool) (som : SomType) (quiet : Bool) : H CompileError (Ng × Bool) := do
  ret (rdebugAssert p (!literal.isEmpty) "assertion failed: !literal.is_empty()")
  if !ng.cc.grey.shortcutLiterals then return (ng, false)
  else if mixedSensitivity literal.iter then return (ng, false)
  else do
    let rm ← registerExtReport ng.rm externalReport ⟨highlander, exprIndex⟩
    let (rm, rose, id) ← (show H CompileError (ReportManager × RoseBuild × Nat) from
      match som with
      | .none => do
        let (rm, ekey) ← (show H CompileError (ReportManager × Option Nat) from
          if highlander then do
            let (rm, k) ← getExhaustibleKey ng.rm rm externalReport
            return (rm, some k)
          else return (rm, none))
        let r := makeECallback externalReport 0 ekey quiet
        let (rm, id) ← getInternalId ng.rm rm r
        return (rm, ng.rose, id)
      | _ => do
        onError (ownedReports rm - ownedReports ng.rm) (ret (rdebugAssert p (!highlander) "assertion failed: !highlander"))
        let r := makeSomRelativeCallback externalReport 0 literal.len
        let (rm, id) ← getInternalId ng.rm rm r
        return (rm, { ng.rose with hasSom := true }, id))
    -- 115: `&hashset! {id}`
    alloc 1
    let rose := rose.add false false literal [id]
    free 1
    match Depth.tryFrom literal.len with
    | none => onError (ownedReports rm - ownedReports ng.rm) (fail (CompileError.new .other "depth overflow"))
    | some d => do
      let smwr ← onError (ownedReports rm - ownedReports ng.rm) (smallAddLiteral ng.smwr literal id)
      return ({ ng with minWidth := Depth.min ng.minWidth d, rm := rm, rose := rose, smwr := smwr }, true)

/-! ## src/parser/build_state.rs, src/nfagraph/ng_builder.rs -/

/-- src/parser/build_state.rs:9-16: what a `GlushkovBuildState` and its builder own. -/
def ownedState (bs : GlushkovBuildState) : Nat := ownedHolder bs.builder.graph + ownedSuccessors bs.successors

/-- src/parser/build_state.rs:67-71: an entry, if there is none, and the members that are new. -/
def addSuccessors (m : List (Nat × List PositionInfo)) (pos : Nat) (tolist : List PositionInfo) :
    H ε (List (Nat × List PositionInfo)) := do
  match alookup m pos with
  | none => do
    alloc 1
    alloc (setExtend [] tolist).length
  | some v => alloc ((setExtend v tolist).length - v.length)
  return GlushkovBuildState.addSuccessors m pos tolist

/-- src/parser/build_state.rs:56-72 `connect_successors`; `tolist` is dropped at the end, all of it. -/
def connectSuccessors (p : Profile) (bs : GlushkovBuildState) (from_ : PositionInfo)
    (tolist : List PositionInfo) : H ε GlushkovBuildState :=
  dropAfter tolist.length do
    ret (rdebugAssert p (decide (from_.pos ≠ GlushkovBuildState.posEpsilon)) "assertion failed: from.pos != pos_epsilon()")
    let tolist ← ret (GlushkovBuildState.filterEdges bs from_ tolist)
    let (bs, tolist) ←
      if tolist.any (fun e => e.pos == bs.acceptState) then do
        let (builder, fakedot) ← ret bs.builder.makePosition
        alloc 1
        pure ({ bs with builder := builder },
          GlushkovBuildState.replaceFirst tolist bs.acceptState (PositionInfo.ofPos fakedot))
      else pure (bs, tolist)
    let s ← addSuccessors bs.successors from_.pos tolist
    return { bs with successors := s }

/-- src/parser/build_state.rs:50-54 `connect_regions`: `firsts` is copied for each of `lasts`.  If it panics, what a turn has added
is dropped with the build state. -/
def connectRegions (p : Profile) (firsts : List PositionInfo) : List PositionInfo → GlushkovBuildState →
    H ε GlushkovBuildState
  | [], bs => return bs
  | last :: lasts, bs => do
    alloc firsts.length
    let bs' ← connectSuccessors p bs last firsts
    onError (ownedState bs' - ownedState bs) (connectRegions p firsts lasts bs')

/-- src/parser/build_state.rs:19-39, 111-113 `new` / `make_glushkov_build_state`.  After a panic the build state is
dropped, and the builder by `build_graph`; both are given back here. -/
def newState (p : Profile) (b : NfaBuilder) : H ε GlushkovBuildState := do
  let bs : GlushkovBuildState :=
    { startState := b.graph.start, startDotStarState := b.graph.startDs,
      acceptState := b.graph.accept, acceptEodState := b.graph.acceptEod,
      builder := b, successors := [] }
  alloc 2
  alloc 1
  dropAfter (2 + 1) (onError (ownedState bs) (connectRegions p [PositionInfo.ofPos b.graph.startDs]
    [PositionInfo.ofPos b.graph.start, PositionInfo.ofPos b.graph.startDs] bs))

/-- src/nfagraph/ng_builder.rs:12-18, src/nfagraph/ng_holder.rs:33-57 `new`: four vertices and three edges. -/
def newBuilder (expr : ExpressionInfo) : H ε NfaBuilder := do
  alloc 4
  alloc 3
  onError (4 + 3) (ret (NfaBuilder.new expr))

mutual
/-- src/parser/component.rs:17-23 `note_positions`; a class makes a vertex (src/parser/ascii_component_class.rs:28-33).
After a panic the caller drops the build state; what was added to it in this call is given back here. -/
def noteComponent (bs : GlushkovBuildState) : Component → H ε GlushkovBuildState
  | .alternation (.mk children) => noteSequences bs children
  | .cls (.ascii c) => do
    alloc 1
    onError 1 (ret (bs.noteClass c))
  | .sequence c => noteSequence bs c
/-- src/parser/component_sequence.rs:42-46 `note_positions`. -/
def noteSequence (bs : GlushkovBuildState) : ComponentSequence → H ε GlushkovBuildState
  | .mk children _ _ _ => noteComponents bs children
/-- src/parser/component_alternation.rs:15-19 `note_positions`. -/
def noteSequences (bs : GlushkovBuildState) : List ComponentSequence → H ε GlushkovBuildState
  | [] => return bs
  | c :: cs => do
    let bs' ← noteSequence bs c
    onError (ownedState bs' - ownedState bs) (noteSequences bs' cs)
/-- The loop src/parser/component_sequence.rs:43-45. -/
def noteComponents (bs : GlushkovBuildState) : List Component → H ε GlushkovBuildState
  | [] => return bs
  | c :: cs => do
    let bs' ← noteComponent bs c
    onError (ownedState bs' - ownedState bs) (noteComponents bs' cs)
end

/-! ## src/parser/shortcut_literal.rs, src/compiler.rs, src/lib.rs -/

/-- src/parser/shortcut_literal.rs:55-86 `shortcut_literal`: the literal is dropped at the end. -/
def shortcutLiteral (p : Profile) (ng : Ng) (pe : ParsedExpression) : H CompileError (Ng × Bool) :=
  if !ng.cc.grey.allowLiteral then return (ng, false)
  else thenDo (walkComponent p Ue2Literal.default pe.component) fun
    | .err _ => return (ng, false)
    | .panic m => ret (.panic m)
    | .timeout => ret .timeout
    | .ok lit => dropAfter (ownedLiteral lit) <|
      if lit.isEmpty then return (ng, false)
      else do
        let index ← ret (ReportManager.toU32 pe.expr.index
          "called `Result::unwrap()` on an `Err` value: TryFromIntError(())")
        ngAddLiteral p ng lit index pe.expr.report pe.expr.highlander pe.expr.som pe.expr.quiet

/-- src/compiler.rs:22-52 `ParsedExpression::new`. -/
def parsedNew (p : Profile) (index : Nat) (expression : Str) (flags : Flags) (id : Nat) :
    H CompileError ParsedExpression :=
  let expr : ExpressionInfo :=
    { index := index, report := id, allowVacuous := false,
      highlander := flags.contains .SINGLEMATCH, utf8 := false,
      prefilter := flags.contains .PREFILTER, som := .none, quiet := flags.contains .QUIET }
  if flags.contains (Flags.QUIET.or .SOM_LEFTMOST) then
    fail (CompileError.new .other "QUIET is not supported in combination with SOM_LEFTMOST.")
  else do
    let flags := flags.and Flags.QUIET.not
    let mode := ParseMode.new flags
    let (component, mode) ← parse p expression mode
    return ⟨{ expr with utf8 := mode.utf8 }, component⟩

/-- src/compiler.rs:115-124 `build_graph`: the build state is dropped at the end, and with it the successors. -/
def buildGraph (p : Profile) (pe : ParsedExpression) : H ε NfaBuilder := do
  let builder ← newBuilder pe.expr
  let bs ← newState p builder
  let bs ← onError (ownedState bs) (noteComponent bs pe.component)
  free (ownedSuccessors bs.successors)
  return bs.builder

/-- src/compiler.rs:60-99 `add_expression`: the tree is dropped however the end is reached, and so is the graph. -/
def addExpression (p : Profile) (ng : Ng) (index : Nat) (expression : Str) (flags : Flags) (id : Nat) :
    H CompileError Ng :=
  if utf8Len expression > ng.cc.grey.limitPatternLength then
    fail (CompileError.new .other "Pattern length exceeds limit.")
  else do
    let pe ← parsedNew p index expression flags id
    let pe := if pe.expr.prefilter then { pe with component := prefilterTree pe.component } else pe
    dropAfter (ownedComponent pe.component) do
      let (ng, done) ← shortcutLiteral p ng pe
      if done then return ng
      else
        let built ← buildGraph p pe
        dropAfter (ownedHolder built.graph) (return ng.addGraph built.expr built.graph)

/-- src/lib.rs:124-129: the loop of `compile_multi_int`, starting at index `i`; after an error or a panic the `Ng` is
dropped, with its box. -/
def addAll (p : Profile) : Nat → Ng → List (Str × Flags × Nat) → H CompileError Ng
  | _, ng, [] => return ng
  | i, ng, (exp, fl, id) :: rest =>
    thenDo (addExpression p ng i exp fl id) fun
    | .ok ng => addAll p (i + 1) ng rest
    | .panic m => do
      free (1 + ownedNg ng)
      ret (.panic m)
    | .timeout => ret .timeout
    | .err e => do
      let idx ← onError (ownedError e + (1 + ownedNg ng)) (ret (ReportManager.toU32 i
        "called `Result::unwrap()` on an `Err` value: TryFromIntError(())"))
      let e ← onError (ownedError e + (1 + ownedNg ng)) (ret (e.setExpressionIndex p idx))
      free (1 + ownedNg ng)
      ret (.err e)

/-- src/lib.rs:96-132 `compile_multi_int`: two tries with a vertex each (src/smallwrite/smallwrite_build.rs:69) and a box
(src/nfagraph/ng.rs:52) are made, and dropped at the end. -/
def compileMultiInt (p : Profile) (expressions : List Str) (flags : List Flags) (ids : List Nat) (mode : Mode)
    (g : Grey) : H CompileError Database :=
  if expressions.isEmpty then
    fail (CompileError.new .other "Invalid parameter: expressions is empty")
  else if expressions.length > g.limitPatternCount then
    fail (CompileError.new .other "Number of patterns too large")
  else do
    alloc 1
    alloc 1
    alloc 1
    let ng := Ng.new ⟨mode.isStreaming, mode.isVectored, g⟩ expressions.length mode.somPrecision
    let ng ← addAll p 0 ng (izip expressions flags ids)
    let db := build ng
    free (1 + ownedNg ng)
    return db

end Rescan.Memory
