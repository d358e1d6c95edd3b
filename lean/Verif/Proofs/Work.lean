import Verif.Model.Work
import Verif.Spec.Work
import Verif.Proofs.TreeLit
import Verif.Proofs.Writes
import Verif.Proofs.Trie
/-! # Work: how many steps each part takes -/
namespace Rescan.Work
open Spec

variable {ε α β σ : Type}

/-- `m` gives `o` in at most `k` steps, and in exactly `k` if `o` is a success. -/
structure Costs (m : W ε α) (o : Outcome ε α) (k : Nat) : Prop where
  out : m.1 = o
  most : m.2 ≤ k
  exact : o.isOk = true → m.2 = k

theorem Costs.ret (o : Outcome ε α) : Costs (ret o) o 0 := ⟨rfl, Nat.le_refl _, fun _ => rfl⟩

theorem Costs.steps {m : W ε α} {o : Outcome ε α} {k : Nat} (n : Nat) (h : Costs m o k) : Costs (steps n m) o (k + n) :=
  ⟨h.out, Nat.add_le_add_right h.most n, fun ho => by
    show m.2 + n = k + n
    rw [h.exact ho]⟩

theorem Costs.bind {m : W ε α} {o : Outcome ε α} {k j : Nat} {f : α → W ε β} {g : α → Outcome ε β} (h : Costs m o k)
    (hf : ∀ a, Costs (f a) (g a) j) : Costs (W.bind m f) (o.bind g) (k + j) := by
  obtain ⟨r, n⟩ := m
  obtain ⟨rfl, h2, h3⟩ := h
  cases r with
  | ok a =>
    exact ⟨(hf a).out, Nat.add_le_add h2 (hf a).most, fun ho => by
      show n + (f a).2 = k + j
      rw [(hf a).exact ho]
      have : n = k := h3 rfl
      omega⟩
  | err e => exact ⟨rfl, Nat.le_trans h2 (Nat.le_add_right _ _), fun ho => by cases ho⟩
  | panic e => exact ⟨rfl, Nat.le_trans h2 (Nat.le_add_right _ _), fun ho => by cases ho⟩
  | timeout => exact ⟨rfl, Nat.le_trans h2 (Nat.le_add_right _ _), fun ho => by cases ho⟩

theorem Costs.mono {m : W ε α} {o : Outcome ε α} {k j : Nat} (h : Costs m o k) (e : k = j) : Costs m o j := e ▸ h

/-- `m` gives `o` in at most `k` steps. -/
structure AtMost (m : W ε α) (o : Outcome ε α) (k : Nat) : Prop where
  out : m.1 = o
  most : m.2 ≤ k

theorem Costs.atMost {m : W ε α} {o : Outcome ε α} {k j : Nat} (h : Costs m o k) (hk : k ≤ j) : AtMost m o j :=
  ⟨h.out, Nat.le_trans h.most hk⟩

theorem AtMost.ret (o : Outcome ε α) (k : Nat) : AtMost (Work.ret o) o k := ⟨rfl, Nat.zero_le _⟩

theorem AtMost.mono {m : W ε α} {o : Outcome ε α} {k j : Nat} (h : AtMost m o k) (hk : k ≤ j) : AtMost m o j :=
  ⟨h.out, Nat.le_trans h.most hk⟩

theorem AtMost.steps {m : W ε α} {o : Outcome ε α} {k : Nat} (n : Nat) (h : AtMost m o k) :
    AtMost (Work.steps n m) o (k + n) :=
  ⟨h.out, Nat.add_le_add_right h.most n⟩

theorem AtMost.bind {m : W ε α} {o : Outcome ε α} {k j : Nat} {f : α → W ε β} {g : α → Outcome ε β} (h : AtMost m o k)
    (hf : ∀ a, o = .ok a → AtMost (f a) (g a) j) : AtMost (W.bind m f) (o.bind g) (k + j) := by
  obtain ⟨r, n⟩ := m
  obtain ⟨rfl, h2⟩ := h
  cases r with
  | ok a => exact ⟨(hf a rfl).out, Nat.add_le_add h2 (hf a rfl).most⟩
  | err e => exact ⟨rfl, Nat.le_trans h2 (Nat.le_add_right _ _)⟩
  | panic e => exact ⟨rfl, Nat.le_trans h2 (Nat.le_add_right _ _)⟩
  | timeout => exact ⟨rfl, Nat.le_trans h2 (Nat.le_add_right _ _)⟩

/-! ## Walking, noting positions, dropping -/

mutual
theorem walkComponent_costs (p : Profile) (v : Visitor ε σ) : ∀ (c : Component) (s : σ), Finalized c →
    Costs (walkComponent p v s c) (Rescan.walkComponent p v s c) (calls 3 c)
  | .alternation (.mk ss), s, h => by
    rw [walkComponent, Rescan.walkComponent, calls]
    exact (walkAlternation_costs p v ss s h).steps 1
  | .cls c, s, _ => by
    rw [walkComponent, Rescan.walkComponent, calls]
    exact (Costs.ret _).steps 3
  | .sequence c, s, h => by
    rw [walkComponent, Rescan.walkComponent, calls]
    exact (walkSequence_costs p v c s h).steps 1
theorem walkAlternation_costs (p : Profile) (v : Visitor ε σ) : ∀ (ss : List ComponentSequence) (s : σ), FinalizedSeqs ss →
    Costs (walkComponentAlternation p v s (.mk ss)) (Rescan.walkComponentAlternation p v s (.mk ss)) (callsSeqs 3 ss + 1)
  | ss, s, h => by
    rw [walkComponentAlternation, Rescan.walkComponentAlternation]
    refine Costs.steps 1 (Costs.mono (Costs.bind (Costs.ret _) fun s =>
      Costs.bind (walkSequences_costs p v (.mk ss) ss s h) fun s => Costs.ret _) (by omega))
theorem walkSequence_costs (p : Profile) (v : Visitor ε σ) : ∀ (c : ComponentSequence) (s : σ), FinalizedSeq c →
    Costs (walkComponentSequence p v s c) (Rescan.walkComponentSequence p v s c) (callsSeq 3 c)
  | .mk cs a ci cn, s, h => by
    rw [walkComponentSequence, Rescan.walkComponentSequence]
    obtain ⟨rfl, h⟩ := h
    rw [callsSeq]
    refine Costs.steps 1 (Costs.mono (Costs.bind (Costs.ret _) fun _ => Costs.bind (Costs.ret _) fun s =>
      Costs.bind (walkComponents_costs p v (.mk cs none ci cn) cs s h) fun s => Costs.ret _) (by omega))
theorem walkSequences_costs (p : Profile) (v : Visitor ε σ) (c : ComponentAlternation) :
    ∀ (ss : List ComponentSequence) (s : σ), FinalizedSeqs ss →
    Costs (walkSequences p v s c ss) (Rescan.walkSequences p v s c ss) (callsSeqs 3 ss)
  | [], s, _ => by
    rw [walkSequences, Rescan.walkSequences, callsSeqs]
    exact Costs.ret _
  | t :: ss, s, h => by
    rw [walkSequences, Rescan.walkSequences, callsSeqs]
    refine Costs.mono (Costs.bind (j := 0 + callsSeqs 3 ss) (walkSequence_costs p v t s h.1) fun s => ?_) (by omega)
    dsimp only
    split
    · exact Costs.bind (Costs.ret _) fun s => walkSequences_costs p v c ss s h.2
    · exact Costs.bind (Costs.ret _) fun s => walkSequences_costs p v c ss s h.2
theorem walkComponents_costs (p : Profile) (v : Visitor ε σ) (c : ComponentSequence) :
    ∀ (cs : List Component) (s : σ), FinalizedAll cs →
    Costs (walkComponents p v s c cs) (Rescan.walkComponents p v s c cs) (callsAll 3 cs)
  | [], s, _ => by
    rw [walkComponents, Rescan.walkComponents, callsAll]
    exact Costs.ret _
  | t :: cs, s, h => by
    rw [walkComponents, Rescan.walkComponents, callsAll]
    refine Costs.mono (Costs.bind (j := 0 + callsAll 3 cs) (walkComponent_costs p v t s h.1) fun s => ?_) (by omega)
    dsimp only
    split
    · exact Costs.bind (Costs.ret _) fun s => walkComponents_costs p v c cs s h.2
    · exact Costs.bind (Costs.ret _) fun s => walkComponents_costs p v c cs s h.2
end

mutual
theorem noteComponent_costs : ∀ (c : Component) (bs : GlushkovBuildState), Finalized c →
    Costs (ε := ε) (noteComponent bs c) (bs.noteComponent c) (calls 3 c)
  | .alternation (.mk ss), bs, h => by
    rw [noteComponent, GlushkovBuildState.noteComponent, calls]
    exact (noteSequences_costs ss bs h).steps 2
  | .cls (.ascii c), bs, _ => by
    rw [noteComponent, GlushkovBuildState.noteComponent, calls]
    exact (Costs.ret _).steps 3
  | .sequence c, bs, h => by
    rw [noteComponent, GlushkovBuildState.noteComponent, calls]
    exact (noteSequence_costs c bs h).steps 1
theorem noteSequence_costs : ∀ (c : ComponentSequence) (bs : GlushkovBuildState), FinalizedSeq c →
    Costs (ε := ε) (noteSequence bs c) (bs.noteSequence c) (callsSeq 3 c)
  | .mk cs a ci cn, bs, h => by
    rw [noteSequence, GlushkovBuildState.noteSequence]
    obtain ⟨rfl, h⟩ := h
    rw [callsSeq]
    exact (noteComponents_costs cs bs h).steps 1
theorem noteSequences_costs : ∀ (ss : List ComponentSequence) (bs : GlushkovBuildState), FinalizedSeqs ss →
    Costs (ε := ε) (noteSequences bs ss) (bs.noteSequences ss) (callsSeqs 3 ss)
  | [], bs, _ => by
    rw [noteSequences, GlushkovBuildState.noteSequences, callsSeqs]
    exact Costs.ret _
  | t :: ss, bs, h => by
    rw [noteSequences, GlushkovBuildState.noteSequences, callsSeqs]
    exact Costs.bind (noteSequence_costs t bs h.1) fun bs => noteSequences_costs ss bs h.2
theorem noteComponents_costs : ∀ (cs : List Component) (bs : GlushkovBuildState), FinalizedAll cs →
    Costs (ε := ε) (noteComponents bs cs) (bs.noteComponents cs) (callsAll 3 cs)
  | [], bs, _ => by
    rw [noteComponents, GlushkovBuildState.noteComponents, callsAll]
    exact Costs.ret _
  | t :: cs, bs, h => by
    rw [noteComponents, GlushkovBuildState.noteComponents, callsAll]
    exact Costs.bind (noteComponent_costs t bs h.1) fun bs => noteComponents_costs cs bs h.2
end

mutual
theorem dropComponent_calls : ∀ c : Component, dropComponent c = calls 1 c
  | .alternation (.mk ss) => by rw [dropComponent, calls, dropSequences_calls ss]; omega
  | .cls _ => by rw [dropComponent, calls]
  | .sequence s => by rw [dropComponent, calls, dropSequence_calls s]; omega
theorem dropSequence_calls : ∀ s : ComponentSequence, dropSequence s = callsSeq 1 s
  | .mk cs none _ _ => by rw [dropSequence, callsSeq, dropComponents_calls cs]; omega
  | .mk cs (some (.mk ss)) _ _ => by
    rw [dropSequence, callsSeq, dropComponents_calls cs, dropSequences_calls ss]; omega
theorem dropSequences_calls : ∀ ss : List ComponentSequence, dropSequences ss = callsSeqs 1 ss
  | [] => by rw [dropSequences, callsSeqs]
  | s :: ss => by rw [dropSequences, callsSeqs, dropSequence_calls s, dropSequences_calls ss]
theorem dropComponents_calls : ∀ cs : List Component, dropComponents cs = callsAll 1 cs
  | [] => by rw [dropComponents, callsAll]
  | c :: cs => by rw [dropComponents, callsAll, dropComponent_calls c, dropComponents_calls cs]
end

theorem callsAll_append (l : Nat) : ∀ xs ys : List Component, callsAll l (xs ++ ys) = callsAll l xs + callsAll l ys
  | [], ys => by rw [List.nil_append, callsAll]; omega
  | x :: xs, ys => by rw [List.cons_append, callsAll, callsAll, callsAll_append l xs ys]; omega

theorem callsSeqs_append (l : Nat) : ∀ xs ys : List ComponentSequence,
    callsSeqs l (xs ++ ys) = callsSeqs l xs + callsSeqs l ys
  | [], ys => by rw [List.nil_append, callsSeqs]; omega
  | x :: xs, ys => by rw [List.cons_append, callsSeqs, callsSeqs, callsSeqs_append l xs ys]; omega

/-! ## Contexts of the parser -/

theorem calls_addAlternation (l : Nat) : ∀ s : ComponentSequence, callsSeq l s.addAlternation ≤ callsSeq l s + 2
  | .mk cs none ci cn => by
    simp only [ComponentSequence.addAlternation, ComponentSequence.alternation, ComponentSequence.children, callsSeq,
      callsSeqs_append, callsSeqs, callsAll]
    omega
  | .mk cs (some (.mk ss)) ci cn => by
    simp only [ComponentSequence.addAlternation, ComponentSequence.alternation, ComponentSequence.children, callsSeq,
      callsSeqs_append, callsSeqs, callsAll, ComponentAlternation.children]
    omega

theorem calls_finalize (l : Nat) : ∀ s : ComponentSequence, callsSeq l s.finalize ≤ callsSeq l s + 2
  | .mk cs none ci cn => by
    simp only [ComponentSequence.finalize, ComponentSequence.alternation]; omega
  | .mk cs (some (.mk ss)) ci cn => by
    simp only [ComponentSequence.finalize, ComponentSequence.addAlternation, ComponentSequence.alternation,
      ComponentSequence.children, callsSeq, callsSeqs_append, callsSeqs, callsAll, callsAll_append, calls,
      ComponentAlternation.children]
    omega

theorem calls_addComponent (l : Nat) (c : Component) : ∀ s : ComponentSequence,
    callsSeq l (s.addComponent c) = callsSeq l s + calls l c
  | .mk cs none ci cn => by
    simp only [ComponentSequence.addComponent, ComponentSequence.children, ComponentSequence.alternation, callsSeq,
      callsAll_append, callsAll]
    omega
  | .mk cs (some (.mk ss)) ci cn => by
    simp only [ComponentSequence.addComponent, ComponentSequence.children, ComponentSequence.alternation, callsSeq,
      callsAll_append, callsAll]
    omega

/-- As `calls`, for all a context holds. -/
def held (l : Nat) (c : Context) : Nat := (c.sequences.map (fun v => callsSeq l v.seq + 1)).sum + callsSeq l c.currentSeq

theorem dropStates_calls : ∀ r : List ExprState, dropStates r = (r.map (fun v => callsSeq 1 v.seq + 1)).sum
  | [] => rfl
  | v :: r => by
    rw [dropStates, List.map_cons, List.sum_cons, dropStates_calls r, dropSequence_calls]; omega

theorem dropContext_held (c : Context) : dropContext c = held 1 c := by
  rw [dropContext, held, dropStates_calls, dropSequence_calls]

theorem held_main {l : Nat} (hl : l ≤ 3) {pr : Profile} {self self' : Context} (hp : self.p ≠ [])
    (hm : self.main pr self.p = .ok self') :
    held l self' ≤ held l self + 3 ∧ self'.p.length + 1 = self.p.length := by
  unfold Context.main at hm
  split at hm
  · rename_i p hp'
    obtain ⟨x, hx, h2⟩ := bind_eq_ok hm
    unfold Context.pushSequence at hx
    obtain ⟨gi, _, hx⟩ := bind_eq_ok hx
    obtain ⟨off, _, hx⟩ := bind_eq_ok hx
    cases hx; cases h2
    refine ⟨?_, by rw [hp']; rfl⟩
    simp only [held, List.map_cons, List.sum_cons, callsSeq, callsAll]
    omega
  · rename_i p hp'
    obtain ⟨x, hx, h2⟩ := bind_eq_ok hm
    unfold Context.popSequence at hx
    split at hx
    · cases hx
    · rename_i v rest hs
      cases hx; cases h2
      refine ⟨?_, by rw [hp']; rfl⟩
      have := calls_finalize l self.currentSeq
      simp only [held, hs, List.map_cons, List.sum_cons, calls_addComponent, calls]
      omega
  · rename_i p hp'
    cases hm
    refine ⟨?_, by rw [hp']; rfl⟩
    have := calls_addAlternation l self.currentSeq
    simp only [held]
    omega
  · rename_i c p _ _ _ hp'
    obtain ⟨_, _, hm⟩ := bind_eq_ok hm
    unfold Rescan.addLiteral at hm
    split at hm
    · obtain ⟨_, _, hm⟩ := bind_eq_ok hm; cases hm
    · cases hm
    · cases hm
    · rename_i seq hs
      obtain ⟨cc, _, hs⟩ := bind_eq_ok hs
      cases hs; cases hm
      refine ⟨?_, by rw [hp']; rfl⟩
      simp only [held, calls_addComponent, calls]
      omega
  · rename_i hp'; exact absurd hp' hp

end Rescan.Work
