import Verif.Model.Graph
/-! # Specification of graphs: leaves of a tree, acceptance, surviving edges

Of the model only data types, the membership test of byte sets and the flag test are used. -/
namespace Rescan.Spec

mutual
/-- The classes of a tree, left to right. -/
def leaves : Component → List AsciiComponentClass
  | .alternation (.mk cs) => leavesSeqs cs
  | .cls (.ascii a) => [a]
  | .sequence s => leavesSeq s
/-- The classes of a sequence, left to right. -/
def leavesSeq : ComponentSequence → List AsciiComponentClass
  | .mk cs _ _ _ => leavesAll cs
/-- The classes of several sequences, left to right. -/
def leavesSeqs : List ComponentSequence → List AsciiComponentClass
  | [] => []
  | s :: ss => leavesSeq s ++ leavesSeqs ss
/-- The classes of several components, left to right. -/
def leavesAll : List Component → List AsciiComponentClass
  | [] => []
  | c :: cs => leaves c ++ leavesAll cs
end

/-- The graph can read `w` from vertex `v` and then reach `accept` or `accept_eod`: each step follows
an edge to a vertex whose reach has the byte read. -/
inductive Reads (h : NgHolder) : Nat → List U8 → Prop where
  | stop (v : Nat) : ((v, h.accept) ∈ h.inner.edges ∨ (v, h.acceptEod) ∈ h.inner.edges) → Reads h v []
  | step (v u : Nat) (props : NfaGraphVertexProps) (b : U8) (w : List U8) : (v, u) ∈ h.inner.edges →
      h.inner.nodes[u]? = some props → props.charReach.test b = true → Reads h u w → Reads h v (b :: w)

/-- The graph accepts `w` from one of its start vertices. -/
def Accepts (h : NgHolder) (w : List U8) : Prop := Reads h h.start w ∨ Reads h h.startDs w

/-- Does edge `from → e` survive filtering?  `af` are the assert flags of the source vertex. -/
def Survives (bs : GlushkovBuildState) (eps : Nat) (af : PosFlags) (from_ e : PositionInfo) : Prop :=
  (from_.pos = bs.startDotStarState →
      e.flags.contains .NOFLOAT = false ∧ from_.flags.contains .NOFLOAT = false) ∧
  (from_.pos = bs.startState → from_.pos ≠ bs.startDotStarState →
      (e.pos = eps → e.flags.isEmpty = true) ∧
      ¬ (e.flags.contains .MUST_FLOAT = true ∧ e.flags.contains .NOFLOAT = true)) ∧
  (af.contains .MULTILINE_START = true → e.pos ≠ bs.acceptEodState)

instance (bs : GlushkovBuildState) (eps : Nat) (af : PosFlags) (from_ e : PositionInfo) :
    Decidable (Survives bs eps af from_ e) := inferInstanceAs (Decidable (_ ∧ _))

/-- The recorded successors of a position. -/
def successorsOf (bs : GlushkovBuildState) (q : Nat) : List PositionInfo :=
  ((bs.successors.find? (fun e => e.1 == q)).map Prod.snd).getD []

/-- The assert flags of a vertex. -/
def flagsAt (bs : GlushkovBuildState) (q : Nat) : PosFlags :=
  ((bs.builder.graph.inner.nodes[q]?).map (fun v => v.assertFlags)).getD ⟨0#32⟩

/-- The firsts to which the last `l` is connected. -/
def survivors (bs : GlushkovBuildState) (firsts : List PositionInfo) (l : PositionInfo) : List PositionInfo :=
  firsts.filter (fun e => decide (Survives bs (2 ^ 32 - 2) (flagsAt bs l.pos) l e))

/-- `out` is `l` with its first element at `accept`, if there is one, replaced by one at `fresh`. -/
def Redirected (accept fresh : Nat) (l out : List PositionInfo) : Prop :=
  ((∀ e ∈ l, e.pos ≠ accept) ∧ out = l) ∨
  ∃ l1 e l2, l = l1 ++ e :: l2 ∧ (∀ x ∈ l1, x.pos ≠ accept) ∧ e.pos = accept ∧
    out = l1 ++ ⟨fresh, ⟨0#32⟩⟩ :: l2

/-- The report `r` is given by a vertex with an edge to an accepting vertex. -/
def ReportedBy (h : NgHolder) (r : Nat) : Prop :=
  ∃ v w, ((v, h.accept) ∈ h.inner.edges ∨ (v, h.acceptEod) ∈ h.inner.edges) ∧
    h.inner.nodes[v]? = some w ∧ r ∈ w.reports

/-- An edge leads from a start vertex to an accepting vertex. -/
def VacuousGraph (h : NgHolder) : Prop :=
  (h.start, h.accept) ∈ h.inner.edges ∨ (h.start, h.acceptEod) ∈ h.inner.edges ∨
  (h.startDs, h.accept) ∈ h.inner.edges ∨ (h.startDs, h.acceptEod) ∈ h.inner.edges

end Rescan.Spec
