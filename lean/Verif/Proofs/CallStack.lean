import Verif.Model.CallStack
import Verif.Spec.CallStack
import Verif.Proofs.TreeLit
import Verif.Proofs.Writes
/-! # Nested calls: how much room each part needs -/
namespace Rescan.CallStack
open Spec

variable {ε α β σ : Type}

/-- With little room `m` overflows or gives `o`; room for `k` calls is enough, and if `o` is a success nothing less is. -/
structure Needs (m : S ε α) (o : Outcome ε α) (k : Nat) : Prop where
  sound : ∀ d, m d = none ∨ m d = some o
  enough : ∀ d, k ≤ d → m d = some o
  least : o.isOk = true → ∀ d, d < k → m d = none

theorem Needs.ret (o : Outcome ε α) : Needs (ret o) o 0 :=
  ⟨fun _ => .inr rfl, fun _ _ => rfl, fun _ _ h => absurd h (Nat.not_lt_zero _)⟩

theorem Needs.call {m : S ε α} {o : Outcome ε α} {k : Nat} (h : Needs m o k) : Needs (call m) o (k + 1) := by
  refine ⟨?_, ?_, ?_⟩
  · rintro (_ | d)
    · exact .inl rfl
    · exact h.sound d
  · rintro (_ | d) hd
    · omega
    · exact h.enough d (by omega)
  · rintro ho (_ | d) hd
    · rfl
    · exact h.least ho d (by omega)

theorem Needs.bind {m : S ε α} {o : Outcome ε α} {k j : Nat} {f : α → S ε β} {g : α → Outcome ε β} (h : Needs m o k)
    (hf : ∀ a, Needs (f a) (g a) j) : Needs (S.bind m f) (o.bind g) (max k j) := by
  refine ⟨?_, ?_, ?_⟩
  · intro d
    unfold S.bind
    rcases h.sound d with e | e
    · rw [e]; exact .inl rfl
    · rw [e]
      cases o with
      | ok a => exact (hf a).sound d
      | _ => exact .inr rfl
  · intro d hd
    unfold S.bind
    rw [h.enough d (by omega)]
    cases o with
    | ok a => exact (hf a).enough d (by omega)
    | _ => rfl
  · intro ho d hd
    unfold S.bind
    cases o with
    | ok a =>
      rcases h.sound d with e | e
      · rw [e]
      · rw [e]
        by_cases hk : d < k
        · rw [h.least rfl d hk] at e; cases e
        · exact (hf a).least ho d (by omega)
    | _ => cases ho

theorem Needs.mono {m : S ε α} {o : Outcome ε α} {k j : Nat} (h : Needs m o k) (e : k = j) : Needs m o j := e ▸ h

theorem Needs.thenDrop {m : S ε α} {o : Outcome ε α} {k j : Nat} {drop : S Empty Unit} (h : Needs m o k)
    (hd : Needs drop (.ok ()) j) : Needs (thenDrop m drop) o (max k j) := by
  refine ⟨?_, ?_, ?_⟩
  · intro d
    unfold CallStack.thenDrop
    rcases h.sound d with e | e
    · rw [e]; exact .inl rfl
    · rw [e]
      rcases hd.sound d with e' | e'
      · rw [e']; exact .inl rfl
      · rw [e']; exact .inr rfl
  · intro d hk
    unfold CallStack.thenDrop
    rw [h.enough d (by omega)]
    dsimp only
    rw [hd.enough d (by omega)]; rfl
  · intro ho d hk
    unfold CallStack.thenDrop
    by_cases hk' : d < k
    · rw [h.least ho d hk']
    · rcases h.sound d with e | e
      · rw [e]
      · rw [e]; dsimp only
        rw [hd.least rfl d (by omega)]; rfl

/-! ## Walking, noting positions, dropping -/

mutual
theorem walkComponent_needs (p : Profile) (v : Visitor ε σ) : ∀ (c : Component) (s : σ), Finalized c →
    Needs (walkComponent p v s c) (Rescan.walkComponent p v s c) (nested 3 c)
  | .alternation (.mk ss), s, h => by
    rw [walkComponent, Rescan.walkComponent, nested]
    exact (walkAlternation_needs p v ss s h).call
  | .cls c, s, _ => by
    rw [walkComponent, Rescan.walkComponent, nested]
    exact (Needs.ret _).call.call.call
  | .sequence c, s, h => by
    rw [walkComponent, Rescan.walkComponent, nested]
    exact (walkSequence_needs p v c s h).call
theorem walkAlternation_needs (p : Profile) (v : Visitor ε σ) : ∀ (ss : List ComponentSequence) (s : σ), FinalizedSeqs ss →
    Needs (walkComponentAlternation p v s (.mk ss)) (Rescan.walkComponentAlternation p v s (.mk ss)) (nestedSeqs 3 ss + 1)
  | ss, s, h => by
    rw [walkComponentAlternation, Rescan.walkComponentAlternation]
    refine Needs.call (Needs.mono (Needs.bind (Needs.ret _) fun s =>
      Needs.bind (walkSequences_needs p v (.mk ss) ss s h) fun s => Needs.ret _) (by omega))
theorem walkSequence_needs (p : Profile) (v : Visitor ε σ) : ∀ (c : ComponentSequence) (s : σ), FinalizedSeq c →
    Needs (walkComponentSequence p v s c) (Rescan.walkComponentSequence p v s c) (nestedSeq 3 c)
  | .mk cs a ci cn, s, h => by
    rw [walkComponentSequence, Rescan.walkComponentSequence]
    obtain ⟨rfl, h⟩ := h
    rw [nestedSeq]
    refine Needs.call (Needs.mono (Needs.bind (Needs.ret _) fun _ => Needs.bind (Needs.ret _) fun s =>
      Needs.bind (walkComponents_needs p v (.mk cs none ci cn) cs s h) fun s => Needs.ret _) (by omega))
theorem walkSequences_needs (p : Profile) (v : Visitor ε σ) (c : ComponentAlternation) :
    ∀ (ss : List ComponentSequence) (s : σ), FinalizedSeqs ss →
    Needs (walkSequences p v s c ss) (Rescan.walkSequences p v s c ss) (nestedSeqs 3 ss)
  | [], s, _ => by
    rw [walkSequences, Rescan.walkSequences, nestedSeqs]
    exact Needs.ret _
  | t :: ss, s, h => by
    rw [walkSequences, Rescan.walkSequences, nestedSeqs]
    refine Needs.mono (Needs.bind (j := max 0 (nestedSeqs 3 ss)) (walkSequence_needs p v t s h.1) fun s => ?_) (by omega)
    dsimp only
    split
    · exact Needs.bind (Needs.ret _) fun s => walkSequences_needs p v c ss s h.2
    · exact Needs.bind (Needs.ret _) fun s => walkSequences_needs p v c ss s h.2
theorem walkComponents_needs (p : Profile) (v : Visitor ε σ) (c : ComponentSequence) :
    ∀ (cs : List Component) (s : σ), FinalizedAll cs →
    Needs (walkComponents p v s c cs) (Rescan.walkComponents p v s c cs) (nestedAll 3 cs)
  | [], s, _ => by
    rw [walkComponents, Rescan.walkComponents, nestedAll]
    exact Needs.ret _
  | t :: cs, s, h => by
    rw [walkComponents, Rescan.walkComponents, nestedAll]
    refine Needs.mono (Needs.bind (j := max 0 (nestedAll 3 cs)) (walkComponent_needs p v t s h.1) fun s => ?_) (by omega)
    dsimp only
    split
    · exact Needs.bind (Needs.ret _) fun s => walkComponents_needs p v c cs s h.2
    · exact Needs.bind (Needs.ret _) fun s => walkComponents_needs p v c cs s h.2
end

mutual
theorem noteComponent_needs : ∀ (c : Component) (bs : GlushkovBuildState), Finalized c →
    Needs (ε := ε) (noteComponent bs c) (bs.noteComponent c) (nested 3 c)
  | .alternation (.mk ss), bs, h => by
    rw [noteComponent, GlushkovBuildState.noteComponent, nested]
    exact (noteSequences_needs ss bs h).call.call
  | .cls (.ascii c), bs, _ => by
    rw [noteComponent, GlushkovBuildState.noteComponent, nested]
    exact (Needs.ret _).call.call.call
  | .sequence c, bs, h => by
    rw [noteComponent, GlushkovBuildState.noteComponent, nested]
    exact (noteSequence_needs c bs h).call
theorem noteSequence_needs : ∀ (c : ComponentSequence) (bs : GlushkovBuildState), FinalizedSeq c →
    Needs (ε := ε) (noteSequence bs c) (bs.noteSequence c) (nestedSeq 3 c)
  | .mk cs a ci cn, bs, h => by
    rw [noteSequence, GlushkovBuildState.noteSequence]
    obtain ⟨rfl, h⟩ := h
    rw [nestedSeq]
    exact (noteComponents_needs cs bs h).call
theorem noteSequences_needs : ∀ (ss : List ComponentSequence) (bs : GlushkovBuildState), FinalizedSeqs ss →
    Needs (ε := ε) (noteSequences bs ss) (bs.noteSequences ss) (nestedSeqs 3 ss)
  | [], bs, _ => by
    rw [noteSequences, GlushkovBuildState.noteSequences, nestedSeqs]
    exact Needs.ret _
  | t :: ss, bs, h => by
    rw [noteSequences, GlushkovBuildState.noteSequences, nestedSeqs]
    exact Needs.bind (noteSequence_needs t bs h.1) fun bs => noteSequences_needs ss bs h.2
theorem noteComponents_needs : ∀ (cs : List Component) (bs : GlushkovBuildState), FinalizedAll cs →
    Needs (ε := ε) (noteComponents bs cs) (bs.noteComponents cs) (nestedAll 3 cs)
  | [], bs, _ => by
    rw [noteComponents, GlushkovBuildState.noteComponents, nestedAll]
    exact Needs.ret _
  | t :: cs, bs, h => by
    rw [noteComponents, GlushkovBuildState.noteComponents, nestedAll]
    exact Needs.bind (noteComponent_needs t bs h.1) fun bs => noteComponents_needs cs bs h.2
end

mutual
theorem dropComponent_needs : ∀ (c : Component), Needs (dropComponent c) (.ok ()) (nested 1 c)
  | .alternation (.mk ss) => by
    rw [dropComponent, nested]
    exact (dropSequences_needs ss).call.call
  | .cls c => by
    rw [dropComponent, nested]
    exact (Needs.ret _).call
  | .sequence c => by
    rw [dropComponent, nested]
    exact (dropSequence_needs c).call
theorem dropSequence_needs : ∀ (c : ComponentSequence), Needs (dropSequence c) (.ok ()) (nestedSeq 1 c)
  | .mk cs none ci cn => by
    rw [dropSequence, nestedSeq]
    exact (dropComponents_needs cs).call
  | .mk cs (some (.mk ss)) ci cn => by
    rw [dropSequence, nestedSeq]
    exact Needs.call (Needs.bind (g := fun _ => .ok ()) (dropComponents_needs cs) fun _ => (dropSequences_needs ss).call)
theorem dropSequences_needs : ∀ (ss : List ComponentSequence), Needs (dropSequences ss) (.ok ()) (nestedSeqs 1 ss)
  | [] => by
    rw [dropSequences, nestedSeqs]
    exact Needs.ret _
  | t :: ss => by
    rw [dropSequences, nestedSeqs]
    exact Needs.bind (g := fun _ => .ok ()) (dropSequence_needs t) fun _ => dropSequences_needs ss
theorem dropComponents_needs : ∀ (cs : List Component), Needs (dropComponents cs) (.ok ()) (nestedAll 1 cs)
  | [] => by
    rw [dropComponents, nestedAll]
    exact Needs.ret _
  | t :: cs => by
    rw [dropComponents, nestedAll]
    exact Needs.bind (g := fun _ => .ok ()) (dropComponent_needs t) fun _ => dropComponents_needs cs
end

/-! ## The parser -/

mutual
theorem nested_one : ∀ c : Component, nested 1 c ≤ nested 3 c
  | .alternation (.mk ss) => by rw [nested, nested]; have := nestedSeqs_one ss; omega
  | .cls c => by simp [nested]
  | .sequence c => by rw [nested, nested]; have := nestedSeq_one c; omega
theorem nestedSeq_one : ∀ c : ComponentSequence, nestedSeq 1 c ≤ nestedSeq 3 c
  | .mk cs none ci cn => by rw [nestedSeq, nestedSeq]; have := nestedAll_one cs; omega
  | .mk cs (some (.mk ss)) ci cn => by
    rw [nestedSeq, nestedSeq]; have := nestedAll_one cs; have := nestedSeqs_one ss; omega
theorem nestedSeqs_one : ∀ ss : List ComponentSequence, nestedSeqs 1 ss ≤ nestedSeqs 3 ss
  | [] => by simp [nestedSeqs]
  | t :: ss => by rw [nestedSeqs, nestedSeqs]; have := nestedSeq_one t; have := nestedSeqs_one ss; omega
theorem nestedAll_one : ∀ cs : List Component, nestedAll 1 cs ≤ nestedAll 3 cs
  | [] => by simp [nestedAll]
  | t :: cs => by rw [nestedAll, nestedAll]; have := nested_one t; have := nestedAll_one cs; omega
end

theorem nestedAll_append (l : Nat) : ∀ xs ys : List Component,
    nestedAll l (xs ++ ys) = max (nestedAll l xs) (nestedAll l ys)
  | [], ys => by simp [nestedAll]
  | x :: xs, ys => by
    rw [List.cons_append, nestedAll, nestedAll, nestedAll_append l xs ys]; omega

theorem nestedSeqs_append (l : Nat) : ∀ xs ys : List ComponentSequence,
    nestedSeqs l (xs ++ ys) = max (nestedSeqs l xs) (nestedSeqs l ys)
  | [], ys => by simp [nestedSeqs]
  | x :: xs, ys => by
    rw [List.cons_append, nestedSeqs, nestedSeqs, nestedSeqs_append l xs ys]; omega

/-- `b` characters have been read since the sequence was begun. -/
def Room (b : Nat) : ComponentSequence → Prop
  | .mk cs none _ _ => 3 * (nestedAll 3 cs + 1) ≤ 5 * b + 7
  | .mk cs (some (.mk ss)) _ _ => 3 * (max (nestedSeqs 3 ss) (nestedAll 3 cs + 1) + 3) ≤ 5 * b + 11 ∧ 1 ≤ b

theorem Room.mono {b b' : Nat} (h : b ≤ b') : ∀ {s : ComponentSequence}, Room b s → Room b' s
  | .mk cs none _ _, hs => by simp only [Room] at hs ⊢; omega
  | .mk cs (some (.mk ss)) _ _, hs => by simp only [Room] at hs ⊢; omega

theorem Room.finalize {b : Nat} : ∀ {s : ComponentSequence}, Room b s →
    3 * nestedSeq 3 s.finalize ≤ 5 * b + 11 ∧ 3 * nestedSeq 3 s ≤ 5 * b + 11
  | .mk cs none _ _, h => by
    simp only [Room, ComponentSequence.finalize, ComponentSequence.alternation, nestedSeq] at h ⊢; omega
  | .mk cs (some (.mk ss)) _ _, h => by
    simp only [Room, ComponentSequence.finalize, ComponentSequence.alternation, ComponentSequence.addAlternation,
      ComponentSequence.children, ComponentAlternation.children, List.nil_append, nestedSeq, nestedAll, nested,
      nestedSeqs_append, nestedSeqs] at h ⊢
    omega

theorem Room.addLiteral {b : Nat} (c : ComponentClass) : ∀ {s : ComponentSequence}, Room b s →
    Room (b + 1) (s.addComponent (.cls c))
  | .mk cs none _ _, h => by
    simp only [Room, ComponentSequence.addComponent, ComponentSequence.alternation, ComponentSequence.children,
      nestedAll_append, nestedAll, nested] at h ⊢
    omega
  | .mk cs (some (.mk ss)) _ _, h => by
    simp only [Room, ComponentSequence.addComponent, ComponentSequence.alternation, ComponentSequence.children,
      nestedAll_append, nestedAll, nested] at h ⊢
    omega

theorem Room.addGroup {b b' : Nat} {t : ComponentSequence} (ht : Room b' t) : ∀ {s : ComponentSequence}, Room b s →
    Room (b + b' + 2) (s.addComponent (.sequence t.finalize))
  | .mk cs none _ _, h => by
    have := ht.finalize.1
    simp only [Room, ComponentSequence.addComponent, ComponentSequence.alternation, ComponentSequence.children,
      nestedAll_append, nestedAll, nested] at h ⊢
    omega
  | .mk cs (some (.mk ss)) _ _, h => by
    have := ht.finalize.1
    simp only [Room, ComponentSequence.addComponent, ComponentSequence.alternation, ComponentSequence.children,
      nestedAll_append, nestedAll, nested] at h ⊢
    omega

theorem Room.addAlternation {b : Nat} : ∀ {s : ComponentSequence}, Room b s → Room (b + 1) s.addAlternation
  | .mk cs none _ _, h => by
    simp only [Room, ComponentSequence.addAlternation, ComponentSequence.alternation, ComponentSequence.children,
      List.nil_append, nestedSeqs, nestedSeq, nestedAll] at h ⊢
    omega
  | .mk cs (some (.mk ss)) _ _, h => by
    simp only [Room, ComponentSequence.addAlternation, ComponentSequence.alternation, ComponentSequence.children,
      ComponentAlternation.children, nestedSeqs_append, nestedSeqs, nestedSeq, nestedAll] at h ⊢
    omega

/-- The same for a stack of sequences, `n` characters having been read in all. -/
def Fits : Nat → ComponentSequence → List ExprState → Prop
  | n, s, [] => Room n s
  | n, s, v :: rest => ∃ b m, Room b s ∧ Fits m v.seq rest ∧ b + m + 1 ≤ n

theorem Fits.mono {n n' : Nat} (h : n ≤ n') {s : ComponentSequence} : ∀ {r : List ExprState}, Fits n s r → Fits n' s r
  | [], hs => Room.mono h hs
  | _ :: _, ⟨b, m, h1, h2, h3⟩ => ⟨b, m, h1, h2, by omega⟩

/-- Changing the current sequence. -/
theorem Fits.update {n : Nat} {s s' : ComponentSequence} (hs : ∀ b, Room b s → Room (b + 1) s') :
    ∀ {r : List ExprState}, Fits n s r → Fits (n + 1) s' r
  | [], h => hs n h
  | _ :: _, ⟨b, m, h1, h2, h3⟩ => ⟨b + 1, m, hs b h1, h2, by omega⟩

theorem Fits.add {n k : Nat} {s s' : ComponentSequence} (hs : ∀ b, Room b s → Room (b + k) s') :
    ∀ {r : List ExprState}, Fits n s r → Fits (n + k) s' r
  | [], h => hs n h
  | _ :: _, ⟨b, m, h1, h2, h3⟩ => ⟨b + k, m, hs b h1, h2, by omega⟩

theorem fits_main {pr : Profile} {self self' : Context} {n : Nat} (h : Fits n self.currentSeq self.sequences)
    (hp : self.p ≠ []) (hm : self.main pr self.p = .ok self') :
    Fits (n + 1) self'.currentSeq self'.sequences ∧ self'.p.length + 1 = self.p.length := by
  unfold Context.main at hm
  split at hm
  · rename_i p hp'
    obtain ⟨x, hx, h2⟩ := bind_eq_ok hm
    unfold Context.pushSequence at hx
    obtain ⟨gi, _, hx⟩ := bind_eq_ok hx
    obtain ⟨off, _, hx⟩ := bind_eq_ok hx
    cases hx; cases h2
    refine ⟨⟨0, n, ?_, h, by omega⟩, by rw [hp']; rfl⟩
    simp [Room, nestedAll]
  · rename_i p hp'
    obtain ⟨x, hx, h2⟩ := bind_eq_ok hm
    unfold Context.popSequence at hx
    split at hx
    · cases hx
    · rename_i v rest hs
      cases hx; cases h2
      rw [hs] at h
      obtain ⟨b, m, h1, h2, h3⟩ := h
      exact ⟨Fits.mono (by omega) (Fits.add (k := b + 2) (fun b' hb' => (h1.addGroup hb').mono (by omega)) h2),
        by rw [hp']; rfl⟩
  · rename_i p hp'
    cases hm
    exact ⟨Fits.update (fun b hb => hb.addAlternation) h, by rw [hp']; rfl⟩
  · rename_i c p _ _ _ hp'
    obtain ⟨_, _, hm⟩ := bind_eq_ok hm
    unfold Rescan.addLiteral at hm
    split at hm
    · obtain ⟨_, _, hm⟩ := bind_eq_ok hm; cases hm
    · cases hm
    · cases hm
    · rename_i seq hs
      obtain ⟨cc, _, hs⟩ := bind_eq_ok hs
      cases hs; cases hm
      exact ⟨Fits.update (fun b hb => hb.addLiteral cc) h, by rw [hp']; rfl⟩
  · rename_i hp'; exact absurd hp' hp

theorem dropStates_needs (P : Nat) : ∀ (r : List ExprState), (∀ v ∈ r, 3 * nestedSeq 1 v.seq ≤ P) →
    ∃ k, Needs (dropStates r) (.ok ()) k ∧ 3 * k ≤ P
  | [], _ => ⟨0, Needs.ret _, by omega⟩
  | v :: r, h => by
    obtain ⟨k, hk, hle⟩ := dropStates_needs P r (fun w hw => h w (List.mem_cons_of_mem _ hw))
    have := h v List.mem_cons_self
    refine ⟨_, Needs.bind (g := fun _ => .ok ()) (dropSequence_needs v.seq) fun _ => hk, by omega⟩

theorem Fits.all {n : Nat} {s : ComponentSequence} : ∀ {r : List ExprState}, Fits n s r →
    3 * nestedSeq 1 s ≤ 5 * n + 11 ∧ ∀ v ∈ r, 3 * nestedSeq 1 v.seq ≤ 5 * n + 11
  | [], h => by
    have h1 := (Room.finalize h).2
    have h2 := nestedSeq_one s
    exact ⟨by omega, by simp⟩
  | v :: r, ⟨b, m, h1, h2, h3⟩ => by
    have h4 := (Room.finalize h1).2
    have h5 := nestedSeq_one s
    have ih := Fits.all h2
    refine ⟨by omega, fun w hw => ?_⟩
    rcases List.mem_cons.1 hw with rfl | hw
    · have := ih.1; omega
    · have := ih.2 w hw; omega

theorem dropContext_needs {c : Context} {n : Nat} (h : Fits n c.currentSeq c.sequences) :
    ∃ k, Needs (dropContext c) (.ok ()) k ∧ 3 * k ≤ 5 * n + 11 := by
  obtain ⟨h1, h2⟩ := h.all
  obtain ⟨k, hk, hle⟩ := dropStates_needs _ _ h2
  exact ⟨_, Needs.bind (g := fun _ => .ok ()) hk fun _ => dropSequence_needs c.currentSeq, by omega⟩

/-- With little room `m` overflows or gives `o`; a success needs no room, anything else no more than for `k` calls. -/
structure Soft (m : S ε α) (o : Outcome ε α) (k : Nat) : Prop where
  sound : ∀ d, m d = none ∨ m d = some o
  enough : ∀ d, k ≤ d → m d = some o
  free : o.isOk = true → ∀ d, m d = some o

theorem Soft.ret (o : Outcome ε α) (k : Nat) : Soft (CallStack.ret o) o k :=
  ⟨fun _ => .inr rfl, fun _ _ => rfl, fun _ _ => rfl⟩

theorem Soft.thenDrop {o : Outcome ε α} {k j : Nat} {drop : S Empty Unit} (hd : Needs drop (.ok ()) j) (hj : j ≤ k)
    (ho : o.isOk = false) : Soft (CallStack.thenDrop (CallStack.ret o) drop) o k := by
  have := Needs.thenDrop (Needs.ret o) hd
  exact ⟨this.sound, fun d hk => this.enough d (by omega), fun h => by rw [ho] at h; cases h⟩

theorem Soft.bind {m : S ε α} {o : Outcome ε α} {k : Nat} {f : α → S ε β} {g : α → Outcome ε β} (h : Soft m o k)
    (hf : ∀ a, o = .ok a → Soft (f a) (g a) k) : Soft (S.bind m f) (o.bind g) k := by
  refine ⟨?_, ?_, ?_⟩
  · intro d
    unfold S.bind
    rcases h.sound d with e | e
    · rw [e]; exact .inl rfl
    · rw [e]
      cases o with
      | ok a => exact (hf a rfl).sound d
      | _ => exact .inr rfl
  · intro d hd
    unfold S.bind
    rw [h.enough d hd]
    cases o with
    | ok a => exact (hf a rfl).enough d hd
    | _ => rfl
  · intro ho d
    unfold S.bind
    cases o with
    | ok a => rw [h.free rfl d]; exact (hf a rfl).free ho d
    | _ => cases ho

theorem mainLoop_soft (pr : Profile) (k : Nat) : ∀ (fuel : Nat) (self : Context) (n : Nat),
    Fits n self.currentSeq self.sequences → 5 * (n + self.p.length) + 11 ≤ 3 * k →
    Soft (mainLoop pr fuel self) (self.mainLoop pr fuel) k ∧
      ∀ c', self.mainLoop pr fuel = .ok c' → Fits (n + self.p.length) c'.currentSeq c'.sequences := by
  intro fuel
  induction fuel with
  | zero =>
    intro self n hf hk
    rw [mainLoop, Context.mainLoop]
    by_cases he : self.p.isEmpty = true
    · rw [if_pos he, if_pos he]
      refine ⟨Soft.ret _ _, fun c' h => ?_⟩
      cases h; exact hf.mono (by omega)
    · rw [if_neg he, if_neg he]
      exact ⟨Soft.ret _ _, fun c' h => by cases h⟩
  | succ fuel ih =>
    intro self n hf hk
    rw [mainLoop, Context.mainLoop]
    by_cases he : self.p.isEmpty = true
    · rw [if_pos he, if_pos he]
      refine ⟨Soft.ret _ _, fun c' h => ?_⟩
      cases h; exact hf.mono (by omega)
    · rw [if_neg he, if_neg he]
      obtain ⟨j, hj, hjk⟩ := dropContext_needs hf
      cases hm : self.main pr self.p with
      | ok self' =>
        obtain ⟨hf', hl⟩ := fits_main hf (fun e => he (by rw [e]; rfl)) hm
        obtain ⟨h1, h2⟩ := ih self' (n + 1) hf' (by omega)
        exact ⟨h1, fun c' h => (h2 c' h).mono (by omega)⟩
      | err e => exact ⟨Soft.thenDrop hj (by omega) rfl, fun c' h => by cases h⟩
      | panic e => exact ⟨Soft.thenDrop hj (by omega) rfl, fun c' h => by cases h⟩
      | timeout => exact ⟨Soft.thenDrop hj (by omega) rfl, fun c' h => by cases h⟩

/-- Parsing a pattern; how deep its tree is. -/
theorem parse_soft (pr : Profile) (ptr : Str) (mode : ParseMode) (k : Nat) (hk : 5 * ptr.length + 14 ≤ 3 * k) :
    Soft (parse pr ptr mode) (Rescan.parse pr ptr mode) k ∧
      ∀ c m, Rescan.parse pr ptr mode = .ok (c, m) → 3 * nested 3 c ≤ 5 * ptr.length + 14 := by
  have hlen : ∀ rest m, readControlVerbs ptr 0 mode = .ok (rest, m) → rest.length ≤ ptr.length := by
    intro rest m h
    unfold readControlVerbs at h
    split at h
    · rename_i r verb hv
      have : r.length ≤ ptr.length := by
        unfold controlVerb at hv
        split at hv
        · rename_i r0
          split at hv
          · cases hv
          · rename_i r1 v1 h1
            split at hv
            · rename_i r2
              injection hv with hv
              injection hv with hv _
              subst hv
              unfold isNotClose at h1
              dsimp only at h1
              split at h1
              · cases h1
              · injection h1 with h1
                injection h1 with h1 _
                have := congrArg List.length h1
                simp at this ⊢; omega
            · cases hv
        · cases hv
      dsimp only at h
      split at h
      · cases h; exact this
      · split at h
        · cases h; exact this
        · split at h
          · cases h
          · split at h <;> cases h
    · cases h; exact Nat.le_refl _
  have hinit : ∀ p m, Fits 0 (Context.new ptr p m).currentSeq (Context.new ptr p m).sequences := by
    intro p m; simp [Context.new, Fits, Room, nestedAll]
  constructor
  · refine Soft.bind (Soft.ret _ _) ?_
    rintro ⟨rest, m⟩ hr
    have hl := hlen rest m hr
    show Soft (S.bind (mainLoop pr rest.length (Context.new ptr rest m)) fun c => S.bind (finish c) _)
      ((((Context.new ptr rest m).mainLoop pr rest.length).bind Context.finish).bind _) k
    rw [obind_assoc]
    have hm := mainLoop_soft pr k rest.length (Context.new ptr rest m) 0 (hinit rest m)
      (by show 5 * (0 + rest.length) + 11 ≤ _; omega)
    refine Soft.bind hm.1 ?_
    intro c hc
    have hf := hm.2 c hc
    obtain ⟨j, hj, hjk⟩ := dropContext_needs hf
    have hj' : j ≤ k := by
      have : (Context.new ptr rest m).p.length = rest.length := rfl
      omega
    refine Soft.bind ?_ fun a _ => Soft.ret _ _
    unfold finish
    split
    · rename_i h; rw [h]; exact Soft.ret _ _
    · rename_i r hr'
      refine Soft.thenDrop hj hj' ?_
      cases hr'' : c.finish with
      | ok a => exact absurd hr'' (hr' a)
      | _ => rfl
  · intro c m h
    obtain ⟨⟨rest, m'⟩, h1, h⟩ := bind_eq_ok h
    obtain ⟨seq, h2, h⟩ := bind_eq_ok h
    cases h
    obtain ⟨ctx, h3, h4⟩ := bind_eq_ok h2
    have hl := hlen _ _ h1
    have hm := (mainLoop_soft pr k rest.length (Context.new ptr rest m) 0 (hinit rest m)
      (by show 5 * (0 + rest.length) + 11 ≤ _; omega)).2 ctx h3
    unfold Context.finish at h4
    split at h4
    · cases h4
    · rename_i hs
      cases h4
      rw [hs] at hm
      have := (Room.finalize hm).1
      have e : (Context.new ptr rest m).p.length = rest.length := rfl
      rw [nested]; omega

end Rescan.CallStack
