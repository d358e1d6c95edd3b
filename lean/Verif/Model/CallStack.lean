import Verif.Model.Compiler
/-! # How deep calls are nested

The compiler once more, with a call stack that has room for a given number of calls.  Counted are the functions that call
themselves or each other: `walk_component` and the `walk_*` functions under it, the `note_positions` methods, and dropping
a `Component`, a `ComponentAlternation` or a `ComponentSequence` (drop glue is written by the compiler, which may use
several calls for each).  All others are nested to a fixed depth and are not counted.  A call that finds no room is a stack overflow,
which ends the process.  Inlining may save stack, so the counts are of calls in progress in the source, not of frames. -/
namespace Rescan.CallStack

variable {ε α β σ : Type}

/-- A run of the code (no Rust counterpart): given the number of calls there is still room for, `none` is a stack
overflow. -/
def S (ε α : Type) : Type := Nat → Option (Outcome ε α)

/-- Doing one thing after the other (no Rust counterpart). -/
def S.bind (m : S ε α) (f : α → S ε β) : S ε β := fun d =>
  match m d with
  | none => none
  | some (.ok a) => f a d
  | some (.err e) => some (.err e)
  | some (.panic s) => some (.panic s)
  | some .timeout => some .timeout

instance : Monad (S ε) where
  pure a := fun _ => some (.ok a)
  bind := S.bind

/-- Code that calls none of the functions counted. -/
def ret (o : Outcome ε α) : S ε α := fun _ => some o

/-- A call. -/
def call (m : S ε α) : S ε α
  | 0 => none
  | d + 1 => m d

/-- Code that looks at what came out of `m` and calls none of the functions counted. -/
def thenDo {δ : Type} (m : S ε α) (f : Outcome ε α → Outcome δ β) : S δ β := fun d => (m d).map f

/-- Whatever comes out of `m` (a panic unwinds), `drop` is then run. -/
def thenDrop (m : S ε α) (drop : S Empty Unit) : S ε α := fun d =>
  match m d with
  | none => none
  | some r => (drop d).map (fun _ => r)

/-! ## src/parser/component*.rs -/

mutual
/-- src/parser/component.rs:39-48 `walk_component` (a class is walked by src/parser/component_class.rs:54-61
`walk_component_class`, which calls src/parser/ascii_component_class.rs:36-44 `walk_ascii_component_class`). -/
def walkComponent (p : Profile) (v : Visitor ε σ) (s : σ) : Component → S ε σ
  | .alternation c => call (walkComponentAlternation p v s c)
  | .cls c => call (call (call (ret (walkComponentClass v s c))))
  | .sequence c => call (walkComponentSequence p v s c)
/-- src/parser/component_alternation.rs:22-40 `walk_component_alternation`. -/
def walkComponentAlternation (p : Profile) (v : Visitor ε σ) (s : σ) : ComponentAlternation → S ε σ
  | .mk children => call do
    let s ← ret (v.preComponentAlternation s (.mk children))
    let s ← walkSequences p v s (.mk children) children
    ret (v.postComponentAlternation s (.mk children))
/-- src/parser/component_sequence.rs:54-74 `walk_component_sequence`. -/
def walkComponentSequence (p : Profile) (v : Visitor ε σ) (s : σ) : ComponentSequence → S ε σ
  | .mk children alternation ci cn => call do
    ret (rdebugAssert p alternation.isNone "assertion failed: c.alternation.is_none()")
    let s ← ret (v.preComponentSequence s (.mk children alternation ci cn))
    let s ← walkComponents p v s (.mk children alternation ci cn) children
    ret (v.postComponentSequence s (.mk children alternation ci cn))
/-- The loop src/parser/component_alternation.rs:27-35. -/
def walkSequences (p : Profile) (v : Visitor ε σ) (s : σ) (c : ComponentAlternation) : List ComponentSequence → S ε σ
  | [] => ret (.ok s)
  | child :: rest => do
    let s ← walkComponentSequence p v s child
    let s ← ret (if !rest.isEmpty then v.duringComponentAlternation s c else .ok s)
    walkSequences p v s c rest
/-- The loop src/parser/component_sequence.rs:61-69. -/
def walkComponents (p : Profile) (v : Visitor ε σ) (s : σ) (c : ComponentSequence) : List Component → S ε σ
  | [] => ret (.ok s)
  | child :: rest => do
    let s ← walkComponent p v s child
    let s ← ret (if !rest.isEmpty then v.duringComponentSequence s c else .ok s)
    walkComponents p v s c rest
end

mutual
/-- src/parser/component.rs:17-23 `note_positions`, with the methods it calls: src/parser/component_alternation.rs:15-19,
src/parser/component_class.rs:46-50 and src/parser/ascii_component_class.rs:28-33. -/
def noteComponent (bs : GlushkovBuildState) : Component → S ε GlushkovBuildState
  | .alternation (.mk children) => call (call (noteSequences bs children))
  | .cls (.ascii c) => call (call (call (ret (bs.noteClass c))))
  | .sequence c => call (noteSequence bs c)
/-- src/parser/component_sequence.rs:42-46 `note_positions`. -/
def noteSequence (bs : GlushkovBuildState) : ComponentSequence → S ε GlushkovBuildState
  | .mk children _ _ _ => call (noteComponents bs children)
/-- The loop src/parser/component_alternation.rs:16-18. -/
def noteSequences (bs : GlushkovBuildState) : List ComponentSequence → S ε GlushkovBuildState
  | [] => ret (.ok bs)
  | c :: cs => do
    let bs ← noteSequence bs c
    noteSequences bs cs
/-- The loop src/parser/component_sequence.rs:43-45. -/
def noteComponents (bs : GlushkovBuildState) : List Component → S ε GlushkovBuildState
  | [] => ret (.ok bs)
  | c :: cs => do
    let bs ← noteComponent bs c
    noteComponents bs cs
end

mutual
/-- src/parser/component.rs:9-13: dropping a `Component`. -/
def dropComponent : Component → S Empty Unit
  | .alternation (.mk children) => call (call (dropSequences children))
  | .cls _ => call (ret (.ok ()))
  | .sequence c => call (dropSequence c)
/-- src/parser/component_sequence.rs:7-14: dropping a `ComponentSequence`, its `children` first and then its
`alternation` (src/parser/component_alternation.rs:5-7). -/
def dropSequence : ComponentSequence → S Empty Unit
  | .mk children none _ _ => call (dropComponents children)
  | .mk children (some (.mk alternatives)) _ _ => call do
    dropComponents children
    call (dropSequences alternatives)
/-- src/parser/component_alternation.rs:6: dropping a `Vec<ComponentSequence>`. -/
def dropSequences : List ComponentSequence → S Empty Unit
  | [] => ret (.ok ())
  | c :: cs => do
    dropSequence c
    dropSequences cs
/-- src/parser/component_sequence.rs:8: dropping a `Vec<Component>`. -/
def dropComponents : List Component → S Empty Unit
  | [] => ret (.ok ())
  | c :: cs => do
    dropComponent c
    dropComponents cs
end

/-! ## src/parser.rs -/

/-- src/parser.rs:73: dropping the stack of sequences (from its top here; the order makes no difference to the depth). -/
def dropStates : List ExprState → S Empty Unit
  | [] => ret (.ok ())
  | v :: rest => do
    dropSequence v.seq
    dropStates rest

/-- src/parser.rs:62-78: dropping a `Context`. -/
def dropContext (c : Context) : S Empty Unit := do
  dropStates c.sequences
  dropSequence c.currentSeq

/-- src/parser.rs:153-155: the loop of `Context::parse`.  If `main` returns an error or panics the `Context`, which
`parse` owns, is dropped; `main` loses no part of it before. -/
def mainLoop (pr : Profile) : Nat → Context → S CompileError Context
  | fuel, self =>
    if self.p.isEmpty then ret (.ok self)
    else match fuel with
      | 0 => ret .timeout
      | fuel + 1 =>
        match self.main pr self.p with
        | .ok self => mainLoop pr fuel self
        | r => thenDrop (ret r) (dropContext self)

/-- src/parser.rs:157-170: what `parse` does after the loop. -/
def finish (self : Context) : S CompileError ComponentSequence :=
  match self.finish with
  | .ok c => ret (.ok c)
  | r => thenDrop (ret r) (dropContext self)

/-- src/parser.rs:174-180 `parse`, with `Context::parse` (152-171). -/
def parse (pr : Profile) (ptr : Str) (globalMode : ParseMode) : S CompileError (Component × ParseMode) := do
  let (p, globalMode) ← ret (readControlVerbs ptr 0 globalMode)
  let c ← mainLoop pr p.length (Context.new ptr p globalMode)
  let rootSeq ← finish c
  return (.sequence rootSeq, globalMode)

/-! ## src/parser/shortcut_literal.rs, src/compiler.rs, src/lib.rs -/

/-- src/parser/shortcut_literal.rs:55-86 `shortcut_literal`. -/
def shortcutLiteral (p : Profile) (ng : Ng) (pe : ParsedExpression) : S CompileError (Ng × Bool) :=
  if !ng.cc.grey.allowLiteral then ret (.ok (ng, false))
  else thenDo (walkComponent p constructLiteralVisitor Ue2Literal.default pe.component) fun
    | .err _ => .ok (ng, false)
    | .panic m => .panic m
    | .timeout => .timeout
    | .ok lit =>
      if lit.isEmpty then .ok (ng, false)
      else do
        let index ← ReportManager.toU32 pe.expr.index
          "called `Result::unwrap()` on an `Err` value: TryFromIntError(())"
        ng.addLiteral p lit index pe.expr.report pe.expr.highlander pe.expr.som pe.expr.quiet

/-- src/compiler.rs:22-52 `ParsedExpression::new`. -/
def parsedNew (p : Profile) (index : Nat) (expression : Str) (flags : Flags) (id : Nat) :
    S CompileError ParsedExpression :=
  let expr : ExpressionInfo :=
    { index := index, report := id, allowVacuous := false,
      highlander := flags.contains .SINGLEMATCH, utf8 := false,
      prefilter := flags.contains .PREFILTER, som := .none, quiet := flags.contains .QUIET }
  if flags.contains (Flags.QUIET.or .SOM_LEFTMOST) then
    ret (.err (CompileError.new .other "QUIET is not supported in combination with SOM_LEFTMOST."))
  else do
    let flags := flags.and Flags.QUIET.not
    let mode := ParseMode.new flags
    let (component, mode) ← parse p expression mode
    return ⟨{ expr with utf8 := mode.utf8 }, component⟩

/-- src/compiler.rs:115-124 `build_graph`. -/
def buildGraph (p : Profile) (pe : ParsedExpression) : S ε NfaBuilder := do
  let builder ← ret (NfaBuilder.new pe.expr)
  let bs ← ret (GlushkovBuildState.new p builder)
  let bs ← noteComponent bs pe.component
  return bs.builder

/-- src/compiler.rs:60-99 `add_expression`: the parsed expression is dropped at the end, however that is reached. -/
def addExpression (p : Profile) (ng : Ng) (index : Nat) (expression : Str) (flags : Flags) (id : Nat) :
    S CompileError Ng :=
  if utf8Len expression > ng.cc.grey.limitPatternLength then
    ret (.err (CompileError.new .other "Pattern length exceeds limit."))
  else do
    let pe ← parsedNew p index expression flags id
    let pe := if pe.expr.prefilter then { pe with component := prefilterTree pe.component } else pe
    thenDrop (do
      let (ng, done) ← shortcutLiteral p ng pe
      if done then return ng
      else
        let built ← buildGraph p pe
        return ng.addGraph built.expr built.graph) (dropComponent pe.component)

/-- src/lib.rs:124-129: the loop of `compile_multi_int`, starting at index `i`. -/
def addAll (p : Profile) : Nat → Ng → List (Str × Flags × Nat) → S CompileError Ng
  | _, ng, [] => ret (.ok ng)
  | i, ng, (exp, fl, id) :: rest => fun d =>
    match addExpression p ng i exp fl id d with
    | none => none
    | some (.ok ng) => addAll p (i + 1) ng rest d
    | some (.panic m) => some (.panic m)
    | some .timeout => some .timeout
    | some (.err e) => some do
      let idx ← ReportManager.toU32 i
        "called `Result::unwrap()` on an `Err` value: TryFromIntError(())"
      let e ← e.setExpressionIndex p idx
      .err e

/-- src/lib.rs:96-132 `compile_multi_int`. -/
def compileMultiInt (p : Profile) (expressions : List Str) (flags : List Flags) (ids : List Nat) (mode : Mode)
    (g : Grey) : S CompileError Database :=
  if expressions.isEmpty then
    ret (.err (CompileError.new .other "Invalid parameter: expressions is empty"))
  else if expressions.length > g.limitPatternCount then
    ret (.err (CompileError.new .other "Number of patterns too large"))
  else do
    let ng := Ng.new ⟨mode.isStreaming, mode.isVectored, g⟩ expressions.length mode.somPrecision
    let ng ← addAll p 0 ng (izip expressions flags ids)
    return build ng

/-- src/lib.rs:87-94 `compile_multi`. -/
def compileMulti (p : Profile) (expressions : List Str) (flags : List Flags) (ids : List Nat) (mode : Mode) :
    S CompileError Database :=
  compileMultiInt p expressions flags ids mode Grey.default

/-- src/lib.rs:78-80 `compile`. -/
def compile (p : Profile) (expression : Str) (flags : Flags) (mode : Mode) : S CompileError Database :=
  compileMultiInt p [expression] [flags] [0] mode Grey.default

end Rescan.CallStack
