import Verif.Proofs.MemoryTame
import Verif.Proofs.WorkParse
/-! # The memory of parsing -/
namespace Rescan.Memory

open Rescan.Spec

variable {ε : Type}

theorem ownedSequences_append : ∀ (a b : List ComponentSequence), ownedSequences (a ++ b) = ownedSequences a + ownedSequences b
  | [], b => by simp [ownedSequences]
  | c :: cs, b => by rw [List.cons_append, ownedSequences, ownedSequences, ownedSequences_append cs b]; omega

theorem ownedComponents_append : ∀ (a b : List Component), ownedComponents (a ++ b) = ownedComponents a + ownedComponents b
  | [], b => by simp [ownedComponents]
  | c :: cs, b => by rw [List.cons_append, ownedComponents, ownedComponents, ownedComponents_append cs b]; omega

theorem owned_addComponent (s : ComponentSequence) (c : Component) :
    ownedSequence (s.addComponent c) = ownedSequence s + (1 + ownedComponent c) := by
  obtain ⟨cs, a, i, n⟩ := s
  cases a with
  | none =>
    simp only [ComponentSequence.addComponent, ComponentSequence.children, ComponentSequence.alternation, ownedSequence,
      ownedComponents_append, ownedComponents]
    omega
  | some a =>
    obtain ⟨as⟩ := a
    simp only [ComponentSequence.addComponent, ComponentSequence.children, ComponentSequence.alternation, ownedSequence,
      ownedComponents_append, ownedComponents]
    omega

theorem owned_addAlternation (s : ComponentSequence) : ownedSequence s.addAlternation = ownedSequence s + 1 := by
  obtain ⟨cs, a, i, n⟩ := s
  cases a with
  | none =>
    simp only [ComponentSequence.addAlternation, ComponentSequence.children, ComponentSequence.alternation, ownedSequence,
      ownedComponents, ownedSequences_append, ownedSequences]
    omega
  | some a =>
    obtain ⟨as⟩ := a
    simp only [ComponentSequence.addAlternation, ComponentSequence.children, ComponentSequence.alternation, ownedSequence,
      ownedComponents, ownedSequences_append, ownedSequences, ComponentAlternation.children]
    omega

theorem owned_finalize (s : ComponentSequence) :
    ownedSequence s.finalize = ownedSequence s + (match s.alternation with | none => 0 | some _ => 2) := by
  obtain ⟨cs, a, i, n⟩ := s
  cases a with
  | none => rfl
  | some a =>
    obtain ⟨as⟩ := a
    simp only [ComponentSequence.finalize, ComponentSequence.addAlternation, ComponentSequence.children,
      ComponentSequence.alternation, ownedSequence, ownedComponent,
      ownedComponents, ownedSequences_append, ownedSequences, ComponentAlternation.children, List.nil_append]
    omega

variable [Owned ε]

theorem finalize_uses (s : ComponentSequence) (f d k : Nat) (hk : ownedSequence s + f + 2 ≤ k) :
    Uses (finalize s : H ε _) (.ok s.finalize) (ownedSequence s + f) (fun x => ownedSequence x + f) d k := by
  unfold finalize
  have h := owned_finalize s
  cases ha : s.alternation with
  | none =>
    rw [ha] at h
    have : s.finalize = s := by unfold ComponentSequence.finalize; rw [ha]
    rw [this]
    exact Uses.pure rfl
  | some a =>
    rw [ha] at h
    exact Uses.then (Uses.alloc (by omega)) (Uses.then (Uses.alloc (by omega)) (Uses.pure (by simp only at h ⊢; omega)))

omit [Owned ε] in
theorem push_ok {pr : Profile} {c c' : Context} {ts : Str} (h : c.pushSequence pr ts = .ok c') :
    ownedContext c' = ownedContext c + 1 := by
  unfold Context.pushSequence at h
  obtain ⟨gi, h1, h⟩ := bind_eq_ok h
  obtain ⟨off, h2, h⟩ := bind_eq_ok h
  cases h
  simp only [ownedContext, ownedStates, ownedSequence, ownedComponents]
  omega

omit [Owned ε] in
theorem push_noerr {pr : Profile} {c : Context} {ts : Str} (e : CompileError) : c.pushSequence pr ts ≠ .err e := by
  unfold Context.pushSequence
  cases h1 : Context.u32Incr pr c.groupIndex with
  | err e => unfold Context.u32Incr at h1; split at h1; · cases h1
             split at h1 <;> cases h1
  | panic _ => exact nofun
  | timeout => exact nofun
  | ok gi =>
    cases h2 : Context.usizeSub (ε := CompileError) pr (utf8Len ts) c.ptrLen with
    | err e => unfold Context.usizeSub at h2; split at h2; · cases h2
               split at h2 <;> cases h2
    | panic _ => exact nofun
    | timeout => exact nofun
    | ok off => exact nofun

omit [Owned ε] in
theorem main_other (pr : Profile) (c : Context) (ch : Char) (p : Str) (h1 : ch ≠ '(') (h2 : ch ≠ ')') (h3 : ch ≠ '|') :
    c.main pr (ch :: p) = (rassert (decide (ch.toNat < 128)) "assertion failed: c.is_ascii()").bind fun _ =>
      match addLiteral c.currentSeq ch c.mode with
      | .err e => (Context.usizeSub pr c.ptrLen (utf8Len c.p)).bind fun idx =>
        .err { e with reason := e.reason ++ " at index " ++ toString idx }
      | .panic m => .panic m
      | .timeout => .timeout
      | .ok seq => .ok { c with currentSeq := seq, p := p } := by
  unfold Context.main
  split
  · rename_i e; cases e; exact absurd rfl h1
  · rename_i e; cases e; exact absurd rfl h2
  · rename_i e; cases e; exact absurd rfl h3
  · rename_i e; cases e; rfl
  · rename_i e; cases e

omit [Owned ε] in
theorem addLiteral_ok {s s' : ComponentSequence} {c : Char} {m : ParseMode} (h : addLiteral s c m = .ok s') :
    ownedSequence s' = ownedSequence s + 1 := by
  unfold addLiteral at h
  obtain ⟨cc, h1, h⟩ := bind_eq_ok h
  cases h
  rw [owned_addComponent, ownedComponent]

/-- A turn of the loop. -/
theorem main_uses (pr : Profile) (c : Context) (ts : Str) (k : Nat)
    (hk : ownedContext c + 2 + message (c.main pr ts) ≤ k) :
    Uses (main pr c ts) (c.main pr ts) (ownedContext c) ownedContext (ownedContext c) k := by
  unfold main
  split
  · unfold Context.main at *
    refine Uses.bind (s := fun _ => ownedContext c) (Uses.ret fun e => push_noerr e) fun c' h => ?_
    have := push_ok h
    exact Uses.then (Uses.alloc (by omega)) (Uses.pure (by rw [← this]; rfl))
  · unfold Context.main Context.popSequence at *
    cases hs : c.sequences with
    | nil =>
      rw [hs] at hk
      refine Uses.fail ?_
      change _ + _ + ownedError _ ≤ _ at hk
      omega
    | cons v rest =>
      simp only
      have e : ownedContext c = ownedSequence c.currentSeq + (1 + ownedSequence v.seq + ownedStates rest) := by
        rw [ownedContext, hs, ownedStates]; omega
      refine Uses.then (Uses.free (by omega)) ?_
      refine Uses.then (s := fun x => ownedSequence x + (ownedSequence v.seq + ownedStates rest))
        (Uses.cast (finalize_uses c.currentSeq (ownedSequence v.seq + ownedStates rest) _ k (by omega)) rfl (by omega)
          (fun _ _ => rfl) (fun _ => rfl) (Nat.le_refl _)) ?_
      have hf := owned_finalize c.currentSeq
      have hf2 : ownedSequence c.currentSeq.finalize ≤ ownedSequence c.currentSeq + 2 := by rw [hf]; split <;> omega
      refine Uses.then (Uses.alloc (by omega)) (Uses.pure ?_)
      simp only [ownedContext, owned_addComponent, ownedComponent]
      omega
  · unfold Context.main at *
    have := owned_addAlternation c.currentSeq
    exact Uses.then (Uses.alloc (by omega)) (Uses.pure (by simp only [ownedContext] at *; omega))
  · rename_i ch p h1 h2 h3
    rw [main_other pr c ch p (fun h => h1 (by rw [h])) (fun h => h2 (by rw [h])) (fun h => h3 (by rw [h]))] at *
    refine Uses.bind (s := fun _ => ownedContext c) (Uses.ret fun e => by unfold rassert; split <;> exact nofun) fun _ hr => ?_
    rw [hr] at hk
    simp only [Outcome.bind] at hk
    cases hl : addLiteral c.currentSeq ch c.mode with
    | err e =>
      rw [hl] at hk
      simp only at hk ⊢
      refine Uses.bind (s := fun _ => ownedContext c)
        (Uses.ret fun e => by unfold Context.usizeSub; split; · exact nofun
                              split <;> exact nofun) fun x hx => ?_
      rw [hx] at hk
      refine Uses.fail ?_
      change _ + _ + ownedError _ ≤ _ at hk
      omega
    | panic m => exact Uses.panic rfl
    | timeout => exact Uses.timeout
    | ok seq =>
      have := addLiteral_ok hl
      exact Uses.then (Uses.alloc (by omega)) (Uses.pure (by simp only [ownedContext] at *; omega))
  · exact Uses.pure rfl

theorem main_grow {pr : Profile} {c c' : Context} {ts : Str} (h : c.main pr ts = .ok c') : ownedContext c' ≤ ownedContext c + 2 := by
  have := main_uses pr c ts _ (Nat.le_refl _)
  rw [h] at this
  exact Uses.bound this (tame_main pr c ts) (by omega)

/-- The loop. -/
theorem mainLoop_uses (pr : Profile) : ∀ (fuel : Nat) (c : Context) (k : Nat),
    ownedContext c + 2 * fuel + message (Context.mainLoop pr fuel c) ≤ k →
    Uses (mainLoop pr fuel c) (Context.mainLoop pr fuel c) (ownedContext c) ownedContext 0 k
  | 0, c, k, _ => by
    rw [mainLoop, Context.mainLoop]
    split
    · exact Uses.pure rfl
    · exact Uses.timeout
  | fuel + 1, c, k, hk => by
    rw [mainLoop, Context.mainLoop] at *
    split
    · exact Uses.pure rfl
    · rename_i hp
      rw [if_neg hp] at hk
      refine Uses.bind (s := ownedContext) (Uses.onError ?_) fun c' h => ?_
      · rw [Nat.zero_add]
        refine main_uses pr c c.p k ?_
        cases hc : c.main pr c.p with
        | err e => rw [hc] at hk; change _ + message (.err e) ≤ _ at hk; omega
        | _ => change _ + 0 ≤ _; omega
      · refine mainLoop_uses pr fuel c' k ?_
        rw [h] at hk
        have := main_grow h
        simp only [bind, Outcome.bind] at hk
        omega

theorem mainLoop_grow {pr : Profile} {fuel : Nat} {c c' : Context} (h : Context.mainLoop pr fuel c = .ok c') :
    ownedContext c' ≤ ownedContext c + 2 * fuel := by
  have := mainLoop_uses pr fuel c _ (Nat.le_refl _)
  rw [h] at this
  exact Uses.bound this (tame_mainLoop pr fuel c) (by omega)

theorem finish_uses (c : Context) (k : Nat) (hk : ownedContext c + 2 + message c.finish ≤ k) :
    Uses (finish c) c.finish (ownedContext c) ownedSequence 0 k := by
  unfold finish Context.finish at *
  cases hs : c.sequences with
  | nil =>
    have e : ownedContext c = ownedSequence c.currentSeq := by rw [ownedContext, hs, ownedStates]; omega
    exact Uses.cast (finalize_uses c.currentSeq 0 0 k (by omega)) rfl (by omega) (fun _ _ => rfl) (fun _ => rfl) (Nat.le_refl _)
  | cons v rest =>
    rw [hs] at hk
    refine Uses.onError ?_
    rw [Nat.zero_add]
    refine Uses.fail ?_
    change _ + _ + ownedError _ ≤ _ at hk
    omega

/-- Parsing leaves the tree. -/
theorem parse_uses (pr : Profile) (ptr : Str) (mode : ParseMode) (k : Nat)
    (hk : 2 * ptr.length + 2 + message (Rescan.parse pr ptr mode) ≤ k) :
    Uses (parse pr ptr mode) (Rescan.parse pr ptr mode) 0 (fun x => ownedComponent x.1) 0 k := by
  unfold parse Rescan.parse at *
  refine Uses.bind (s := fun _ => 0) ?_ fun x h => ?_
  · unfold readControlVerbs
    cases hr : Rescan.readControlVerbs ptr 0 mode with
    | err e =>
      rw [hr] at hk
      refine Uses.fail ?_
      change _ + ownedError e ≤ _ at hk
      omega
    | ok x => exact Uses.ok rfl
    | panic m => exact Uses.panic rfl
    | timeout => exact Uses.timeout
  · obtain ⟨p, m⟩ := x
    rw [h] at hk
    have hl : p.length ≤ ptr.length := by
      rcases Work.readControlVerbs_rest h with ⟨rfl, _⟩ | h <;> omega
    have hn : ownedContext (Context.new ptr p m) = 0 := rfl
    cases hm : Context.mainLoop pr p.length (Context.new ptr p m) with
    | ok c =>
      have hg := mainLoop_grow hm
      have h1 := mainLoop_uses pr p.length (Context.new ptr p m) k (by rw [hm]; change _ + 0 ≤ _; omega)
      rw [hm] at h1
      have hk' : 2 * ptr.length + 2 + message c.finish ≤ k := by
        refine Nat.le_trans (Nat.add_le_add_left ?_ _) hk
        change _ ≤ message (Outcome.bind (Outcome.bind (Context.mainLoop pr p.length (Context.new ptr p m)) _) _)
        rw [hm]
        simp only [Outcome.bind]
        cases c.finish <;> first | exact Nat.le_refl _ | exact Nat.zero_le _
      show Uses (mainLoop pr p.length (Context.new ptr p m) >>= _)
        (Outcome.bind (Outcome.bind (Context.mainLoop pr p.length (Context.new ptr p m)) _) _) _ _ _ _
      rw [hm]
      refine Uses.then h1 ?_
      exact Uses.bind (finish_uses c k (by omega)) fun s _ => Uses.pure rfl
    | err e =>
      have hk' : 2 * ptr.length + 2 + ownedError e ≤ k := by
        change _ + message (Outcome.bind (Outcome.bind (Context.mainLoop pr p.length (Context.new ptr p m)) _) _) ≤ _ at hk
        rwa [hm] at hk
      have h1 := mainLoop_uses pr p.length (Context.new ptr p m) k (by rw [hm]; change _ + ownedError e ≤ _; omega)
      show Uses (mainLoop pr p.length (Context.new ptr p m) >>= _)
        (Outcome.bind (Outcome.bind (Context.mainLoop pr p.length (Context.new ptr p m)) _) _) _ _ _ _
      rw [hm] at h1 ⊢
      exact Uses.bind (g := fun _ => .err e) h1 (fun x hx => nomatch hx)
    | panic t =>
      have h1 := mainLoop_uses pr p.length (Context.new ptr p m) k (by rw [hm]; change _ + 0 ≤ _; omega)
      show Uses (mainLoop pr p.length (Context.new ptr p m) >>= _)
        (Outcome.bind (Outcome.bind (Context.mainLoop pr p.length (Context.new ptr p m)) _) _) _ _ _ _
      rw [hm] at h1 ⊢
      exact Uses.bind (g := fun _ => .timeout) h1 (fun x hx => nomatch hx)
    | timeout =>
      have h1 := mainLoop_uses pr p.length (Context.new ptr p m) k (by rw [hm]; change _ + 0 ≤ _; omega)
      show Uses (mainLoop pr p.length (Context.new ptr p m) >>= _)
        (Outcome.bind (Outcome.bind (Context.mainLoop pr p.length (Context.new ptr p m)) _) _) _ _ _ _
      rw [hm] at h1 ⊢
      exact Uses.bind (g := fun _ => .timeout) h1 (fun x hx => nomatch hx)

/-- The tree is at most twice as large as the pattern. -/
theorem parse_owned {pr : Profile} {ptr : Str} {mode m : ParseMode} {c : Component} (h : Rescan.parse pr ptr mode = .ok (c, m)) :
    ownedComponent c ≤ 2 * ptr.length + 2 := by
  have := parse_uses pr ptr mode (2 * ptr.length + 2) (by rw [h]; exact Nat.le_refl _)
  rw [h] at this
  exact Uses.bound (x := (c, m)) this (tame_parse pr ptr mode) (Nat.zero_le _)

end Rescan.Memory
