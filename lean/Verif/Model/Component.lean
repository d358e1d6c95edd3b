import Verif.Model.Config
import Verif.Model.CharReach
/-! # The parse tree: src/parser/component*.rs, src/parser/ascii_component_class.rs,
src/parser/const_component_visitor.rs -/
namespace Rescan

/-- src/parser/ascii_component_class.rs:6-9 `AsciiComponentClass`. -/
structure AsciiComponentClass where
  mode : ParseMode
  cr : CharReach
deriving DecidableEq

namespace AsciiComponentClass

/-- src/parser/ascii_component_class.rs:12-17 `new`. -/
def new (mode : ParseMode) : AsciiComponentClass := ⟨mode, CharReach.default⟩
/-- src/parser/ascii_component_class.rs:19-26 `add`. -/
def add (cc : AsciiComponentClass) (c : U8) : AsciiComponentClass :=
  let ncr := CharReach.fromChar c
  let ncr := if cc.mode.caseless then ncr.makeCaseless else ncr
  { cc with cr := cc.cr.orAssign ncr }

end AsciiComponentClass

/-- src/parser/component_class.rs:25-27 `ComponentClass`. -/
inductive ComponentClass where
  | ascii (c : AsciiComponentClass)
deriving DecidableEq

namespace ComponentClass

/-- src/parser/component_class.rs:30-43 `add`; `c as u8` truncates the scalar value. -/
def add (self : ComponentClass) (c : Char) : Res ComponentClass :=
  match self with
  | .ascii cc =>
    if c.toNat > 0xff then
      .err (CompileError.new .locatedParse "Hexadecimal value is greater than \\xFF")
    else .ok (.ascii (cc.add (BitVec.ofNat 8 c.toNat)))

end ComponentClass

/-- src/parser/component_class.rs:5-7 `get_component_class`. -/
def getComponentClass (mode : ParseMode) : ComponentClass := .ascii (AsciiComponentClass.new mode)

/-- src/parser/component_class.rs:11-22 `get_literal_component_class`. -/
def getLiteralComponentClass (c : Char) (nocase : Bool) : Res ComponentClass :=
  (getComponentClass { ParseMode.default with caseless := nocase }).add c

mutual
/-- src/parser/component.rs:9-13 `Component`. -/
inductive Component where
  | alternation (c : ComponentAlternation)
  | cls (c : ComponentClass)
  | sequence (c : ComponentSequence)
/-- src/parser/component_alternation.rs:5-7 `ComponentAlternation`. -/
inductive ComponentAlternation where
  | mk (children : List ComponentSequence)
/-- src/parser/component_sequence.rs:7-14 `ComponentSequence`. -/
inductive ComponentSequence where
  | mk (children : List Component) (alternation : Option ComponentAlternation)
    (captureIndex : Option Nat) (captureName : Option String)
end

/-- src/parser/component_alternation.rs:6: field access. -/
def ComponentAlternation.children : ComponentAlternation → List ComponentSequence
  | .mk c => c

namespace ComponentSequence

/-- src/parser/component_sequence.rs:8: field access. -/
def children : ComponentSequence → List Component | .mk c _ _ _ => c
/-- src/parser/component_sequence.rs:9: field access. -/
def alternation : ComponentSequence → Option ComponentAlternation | .mk _ a _ _ => a
/-- src/parser/component_sequence.rs:11: field access. -/
def captureIndex : ComponentSequence → Option Nat | .mk _ _ i _ => i
/-- src/parser/component_sequence.rs:13: field access. -/
def captureName : ComponentSequence → Option String | .mk _ _ _ n => n

/-- src/parser/component_sequence.rs:6 `#[derive(Default)]`. -/
def default : ComponentSequence := .mk [] none none none

/-- src/parser/component_sequence.rs:17-26 `add_alternation` (with
src/parser/component_alternation.rs:10-12 `append`). -/
def addAlternation (self : ComponentSequence) : ComponentSequence :=
  let alts : List ComponentSequence :=
    match self.alternation with
    | none => []
    | some a => a.children
  .mk [] (some (.mk (alts ++ [.mk self.children none none none]))) self.captureIndex
    self.captureName

/-- src/parser/component_sequence.rs:28-35 `finalize`.  The `debug_assert!(self.children.is_empty())`
is left out: `addAlternation` always leaves no children. -/
def finalize (self : ComponentSequence) : ComponentSequence :=
  match self.alternation with
  | none => self
  | some _ =>
    let s := self.addAlternation
    match s.alternation with
    | some a => .mk (s.children ++ [.alternation a]) none s.captureIndex s.captureName
    | none => s

/-- src/parser/component_sequence.rs:37-39 `add_component`. -/
def addComponent (self : ComponentSequence) (comp : Component) : ComponentSequence :=
  .mk (self.children ++ [comp]) self.alternation self.captureIndex self.captureName

end ComponentSequence

/-- src/parser/const_component_visitor.rs:4-18 `ConstComponentVisitor`, with visitor state `σ`.
The `during_*` and `post_*` methods return nothing in Rust; they are `Outcome`s here because they can
panic (`DumpVisitor`'s `post_*` do).  The `during_*` methods take `&self`; they give a new state here
so as to allow for interior mutability.  Both implementations of the code leave them empty, which is the
default here. -/
structure Visitor (ε σ : Type) where
  preAsciiComponentClass : σ → AsciiComponentClass → Outcome ε σ
  preComponentAlternation : σ → ComponentAlternation → Outcome ε σ
  preComponentSequence : σ → ComponentSequence → Outcome ε σ
  duringAsciiComponentClass : σ → AsciiComponentClass → Outcome ε σ := fun s _ => .ok s
  duringComponentAlternation : σ → ComponentAlternation → Outcome ε σ := fun s _ => .ok s
  duringComponentSequence : σ → ComponentSequence → Outcome ε σ := fun s _ => .ok s
  postAsciiComponentClass : σ → AsciiComponentClass → Outcome ε σ
  postComponentAlternation : σ → ComponentAlternation → Outcome ε σ
  postComponentSequence : σ → ComponentSequence → Outcome ε σ

variable {ε σ : Type}

/-- src/parser/component_class.rs:54-61 `walk_component_class` and
src/parser/ascii_component_class.rs:36-44 `walk_ascii_component_class`. -/
def walkComponentClass (v : Visitor ε σ) (s : σ) : ComponentClass → Outcome ε σ
  | .ascii c => do
    let s ← v.preAsciiComponentClass s c
    let s ← v.duringAsciiComponentClass s c
    v.postAsciiComponentClass s c

mutual
/-- src/parser/component.rs:39-48 `walk_component`. -/
def walkComponent (p : Profile) (v : Visitor ε σ) (s : σ) : Component → Outcome ε σ
  | .alternation c => walkComponentAlternation p v s c
  | .cls c => walkComponentClass v s c
  | .sequence c => walkComponentSequence p v s c
/-- src/parser/component_alternation.rs:22-40 `walk_component_alternation`. -/
def walkComponentAlternation (p : Profile) (v : Visitor ε σ) (s : σ) :
    ComponentAlternation → Outcome ε σ
  | .mk children => do
    let s ← v.preComponentAlternation s (.mk children)
    let s ← walkSequences p v s (.mk children) children
    v.postComponentAlternation s (.mk children)
/-- src/parser/component_sequence.rs:54-74 `walk_component_sequence`. -/
def walkComponentSequence (p : Profile) (v : Visitor ε σ) (s : σ) :
    ComponentSequence → Outcome ε σ
  | .mk children alternation ci cn => do
    rdebugAssert p alternation.isNone "assertion failed: c.alternation.is_none()"
    let s ← v.preComponentSequence s (.mk children alternation ci cn)
    let s ← walkComponents p v s (.mk children alternation ci cn) children
    v.postComponentSequence s (.mk children alternation ci cn)
/-- The loop src/parser/component_alternation.rs:27-35 over the remaining children of `c`; `peek` sees
whether there are more. -/
def walkSequences (p : Profile) (v : Visitor ε σ) (s : σ) (c : ComponentAlternation) :
    List ComponentSequence → Outcome ε σ
  | [] => .ok s
  | child :: rest => do
    let s ← walkComponentSequence p v s child
    let s ← if !rest.isEmpty then v.duringComponentAlternation s c else .ok s
    walkSequences p v s c rest
/-- The loop src/parser/component_sequence.rs:61-69 over the remaining children of `c`. -/
def walkComponents (p : Profile) (v : Visitor ε σ) (s : σ) (c : ComponentSequence) :
    List Component → Outcome ε σ
  | [] => .ok s
  | child :: rest => do
    let s ← walkComponent p v s child
    let s ← if !rest.isEmpty then v.duringComponentSequence s c else .ok s
    walkComponents p v s c rest
end

end Rescan
