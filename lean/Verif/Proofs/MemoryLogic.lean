import Verif.Model.Memory
/-! # Reasoning about runs with limited memory -/
namespace Rescan.Memory

open Rescan.Spec

variable {ε δ α β : Type}

/-! ## The limit only decides whether a run ends early -/

/-- With a higher limit the same happens, and the limit is respected. -/
structure Tame (m : H ε α) : Prop where
  more : ∀ {lim lim' live r}, lim ≤ lim' → m lim live = some r → m lim' live = some r
  within : ∀ {lim live o l}, live ≤ lim → m lim live = some (o, l) → l ≤ lim

theorem Tame.ret (o : Outcome ε α) : Tame (ret o) where
  more _ h := h
  within hl h := by
    simp only [Memory.ret, Option.some.injEq, Prod.mk.injEq] at h
    omega

theorem Tame.pure (a : α) : Tame (pure a : H ε α) := Tame.ret (.ok a)

theorem Tame.alloc (n : Nat) : Tame (alloc n : H ε Unit) where
  more hl h := by
    unfold Memory.alloc at h ⊢
    split at h
    · rw [if_pos (by omega), h]
    · cases h
  within hl h := by
    unfold Memory.alloc at h
    split at h
    · cases h; assumption
    · cases h

theorem Tame.free (n : Nat) : Tame (free n : H ε Unit) where
  more _ h := h
  within hl h := by
    unfold Memory.free at h
    split at h
    · cases h; omega
    · cases h

theorem Tame.thenDo {m : H ε α} {f : Outcome ε α → H δ β} (hm : Tame m) (hf : ∀ o, Tame (f o)) : Tame (thenDo m f) where
  more {lim lim' live r} hl h := by
    unfold Memory.thenDo at h ⊢
    split at h
    · cases h
    · rename_i o l e
      rw [hm.more hl e]
      exact (hf o).more hl h
  within {lim live o l} hl h := by
    unfold Memory.thenDo at h
    split at h
    · cases h
    · rename_i o' l' e
      exact (hf o').within (hm.within hl e) h

/-- Doing one thing after the other looks at what came out. -/
theorem bind_eq (m : H ε α) (f : α → H ε β) : H.bind m f = thenDo m fun
    | .ok a => f a
    | .err e => ret (.err e)
    | .panic s => ret (.panic s)
    | .timeout => ret .timeout := by
  funext lim live
  unfold H.bind thenDo
  split <;> rename_i e <;> simp [e, ret]

theorem Tame.bind {m : H ε α} {f : α → H ε β} (hm : Tame m) (hf : ∀ a, Tame (f a)) : Tame (m >>= f) := by
  show Tame (H.bind m f)
  rw [bind_eq]
  refine hm.thenDo fun o => ?_
  cases o with
  | ok a => exact hf a
  | err e => exact Tame.ret _
  | panic s => exact Tame.ret _
  | timeout => exact Tame.ret _

theorem Tame.fail (e : CompileError) : Tame (fail e : H CompileError α) := (Tame.alloc _).bind fun _ => Tame.ret _

theorem Tame.onError (n : Nat) {m : H ε α} (hm : Tame m) : Tame (onError n m) := by
  refine hm.thenDo fun o => ?_
  cases o with
  | err e => exact (Tame.free n).bind fun _ => Tame.ret _
  | ok a => exact Tame.ret _
  | panic s => exact (Tame.free n).bind fun _ => Tame.ret _
  | timeout => exact Tame.ret _

theorem Tame.dropAfter (n : Nat) {m : H ε α} (hm : Tame m) : Tame (dropAfter n m) := by
  refine hm.thenDo fun o => ?_
  cases o with
  | ok a => exact (Tame.free n).bind fun _ => Tame.ret _
  | err e => exact (Tame.free n).bind fun _ => Tame.ret _
  | panic s => exact (Tame.free n).bind fun _ => Tame.ret _
  | timeout => exact Tame.ret _

/-- Goes through a definition. -/
macro "tame" : tactic => `(tactic| repeat (first
  | exact Tame.ret _ | exact Tame.pure _ | exact Tame.alloc _ | exact Tame.free _ | exact Tame.fail _
  | assumption
  | refine Tame.onError _ ?_ | refine Tame.dropAfter _ ?_
  | refine Tame.bind ?_ fun _ => ?_
  | split))

/-! ## What a run comes to if there is enough memory -/

/-- What an error owns. -/
class Owned (ε : Type) where
  owned : ε → Nat

instance : Owned CompileError := ⟨ownedError⟩
instance : Owned NotLiteral := ⟨fun _ => 0⟩

variable [Owned ε] [Owned δ]

/-- The message of an outcome, if it is an error. -/
def message : Outcome ε α → Nat
  | .err e => Owned.owned e
  | _ => 0

theorem message_bind_le (o : Outcome ε α) (g : α → Outcome ε β) : message o ≤ message (o >>= g) := by
  cases o <;> first | exact Nat.le_refl _ | exact Nat.zero_le _

theorem message_fits {o : Outcome ε α} {g : α → Outcome ε β} {b k : Nat} (h : b + message (o >>= g) ≤ k) : b + message o ≤ k := by
  have := message_bind_le o g
  omega

theorem message_bind_ok {o : Outcome ε α} {g : α → Outcome ε β} {x : α} (h : o = .ok x) : message (o >>= g) = message (g x) := by
  rw [h]; rfl

/-- `l` elements are left: `s x` more than `live` after returning `x`, `d` more, and the error, after an error,
and `d` more after a panic. -/
def Left (live : Nat) (s : α → Nat) (d l : Nat) : Outcome ε α → Prop
  | .ok x => l = live + s x
  | .err e => l = live + d + Owned.owned e
  | .panic _ => l = live + d
  | .timeout => True

/-- Started with `a` elements of its own, and with room for `k`, `m` gives `o`; it then owns `s x` elements if it returned `x`, and
`d` elements and the error if it returned an error, and `d` elements if it panicked. -/
def Uses (m : H ε α) (o : Outcome ε α) (a : Nat) (s : α → Nat) (d k : Nat) : Prop :=
  ∀ lim live, live + k ≤ lim → ∃ l, m lim (live + a) = some (o, l) ∧ Left live s d l o

theorem Uses.bound {m : H ε α} {x : α} {a : Nat} {s : α → Nat} {d k : Nat} (h : Uses m (.ok x) a s d k) (ht : Tame m)
    (hk : a ≤ k) : s x ≤ k := by
  obtain ⟨l, e, hl⟩ := h k 0 (by omega)
  have := ht.within (by omega) e
  simp only [Left] at hl
  omega

/-- Whatever the limit: if the run ends, it ends in this way. -/
theorem Uses.always {m : H ε α} {o : Outcome ε α} {a : Nat} {s : α → Nat} {d k : Nat} (h : Uses m o a s d k) (ht : Tame m)
    {lim live : Nat} {r : Outcome ε α} {l : Nat} (e : m lim (live + a) = some (r, l)) :
    r = o ∧ Left live s d l o := by
  obtain ⟨l', e', hl⟩ := h (max lim (live + k)) live (by omega)
  have e2 := ht.more (show lim ≤ max lim (live + k) by omega) e
  rw [e'] at e2
  cases e2
  exact ⟨rfl, hl⟩

theorem Uses.weaken {m : H ε α} {o : Outcome ε α} {a : Nat} {s : α → Nat} {d k k' : Nat} (h : Uses m o a s d k) (hk : k ≤ k') :
    Uses m o a s d k' := fun lim live hl => h lim live (by omega)

/-- What `m` does not know about stays. -/
theorem Uses.frame {m : H ε α} {o : Outcome ε α} {a : Nat} {s : α → Nat} {d k : Nat} (f : Nat) (h : Uses m o a s d k) :
    Uses m o (a + f) (fun x => s x + f) (d + f) (k + f) := by
  intro lim live hl
  obtain ⟨l, e, h⟩ := h lim (live + f) (by omega)
  refine ⟨l, by rw [← e]; congr 1; omega, ?_⟩
  cases o <;> simp only [Left] at h ⊢ <;> omega

theorem Uses.cast {m : H ε α} {o o' : Outcome ε α} {a a' : Nat} {s s' : α → Nat} {d d' k k' : Nat} (h : Uses m o a s d k)
    (ho : o = o') (ha : a = a') (hs : ∀ x, o = .ok x → s x = s' x) (hd : (∀ x, o ≠ .ok x) → d = d') (hk : k ≤ k') :
    Uses m o' a' s' d' k' := by
  subst ho ha
  intro lim live hl
  obtain ⟨l, e, h⟩ := h lim live (by omega)
  refine ⟨l, e, ?_⟩
  cases o with
  | ok x => simp only [Left] at h ⊢; rw [h, hs x rfl]
  | err x => simp only [Left] at h ⊢; rw [h, hd nofun]
  | panic _ => simp only [Left] at h ⊢; rw [h, hd nofun]
  | timeout => trivial

theorem Uses.ok {x : α} {a : Nat} {s : α → Nat} {d k : Nat} (h : a = s x) : Uses (ret (.ok x) : H ε α) (.ok x) a s d k :=
  fun _ live _ => ⟨live + a, rfl, by simp only [Left]; omega⟩

theorem Uses.pure {x : α} {a : Nat} {s : α → Nat} {d k : Nat} (h : a = s x) : Uses (pure x : H ε α) (.ok x) a s d k := Uses.ok h

theorem Uses.err {e : ε} {a : Nat} {s : α → Nat} {d k : Nat} (h : a = d + Owned.owned e) :
    Uses (ret (.err e) : H ε α) (.err e) a s d k :=
  fun _ live _ => ⟨live + a, rfl, by simp only [Left]; omega⟩

theorem Uses.panic {t : String} {a : Nat} {s : α → Nat} {d k : Nat} (h : a = d) :
    Uses (ret (.panic t) : H ε α) (.panic t) a s d k :=
  fun _ live _ => ⟨live + a, rfl, by simp only [Left]; omega⟩

theorem Uses.timeout {a : Nat} {s : α → Nat} {d k : Nat} : Uses (ret .timeout : H ε α) .timeout a s d k :=
  fun _ _ _ => ⟨_, rfl, trivial⟩

/-- Code that allocates nothing and gives no error. -/
theorem Uses.ret {o : Outcome ε α} {a : Nat} {k : Nat} (h : ∀ e, o ≠ .err e) : Uses (ret o) o a (fun _ => a) a k := by
  cases o with
  | ok x => exact Uses.ok rfl
  | err e => exact absurd rfl (h e)
  | panic t => exact Uses.panic rfl
  | timeout => exact Uses.timeout

theorem Uses.alloc {n a d k : Nat} (h : a + n ≤ k) : Uses (alloc n : H ε Unit) (.ok ()) a (fun _ => a + n) d k := by
  intro lim live hl
  refine ⟨live + a + n, ?_, by simp only [Left]; omega⟩
  unfold Memory.alloc
  rw [if_pos (by omega)]

theorem Uses.free {n a d k : Nat} (h : n ≤ a) : Uses (free n : H ε Unit) (.ok ()) a (fun _ => a - n) d k := by
  intro lim live hl
  refine ⟨live + a - n, ?_, by simp only [Left]; omega⟩
  unfold Memory.free
  rw [if_pos (by omega)]

theorem Uses.thenDo {m : H ε α} {o : Outcome ε α} {a : Nat} {s : α → Nat} {d k : Nat} {f : Outcome ε α → H δ β}
    {g : Outcome ε α → Outcome δ β} {t : β → Nat} {d' : Nat} (h : Uses m o a s d k)
    (hok : ∀ x, o = .ok x → Uses (f (.ok x)) (g (.ok x)) (s x) t d' k)
    (herr : ∀ e, o = .err e → Uses (f (.err e)) (g (.err e)) (d + Owned.owned e) t d' k)
    (hp : ∀ x, o = .panic x → Uses (f (.panic x)) (g (.panic x)) d t d' k)
    (ht : f .timeout = Memory.ret .timeout ∧ g .timeout = .timeout) :
    Uses (Memory.thenDo m f) (g o) a t d' k := by
  intro lim live hl
  obtain ⟨l, e, h⟩ := h lim live hl
  unfold Memory.thenDo
  rw [e]
  cases o with
  | ok x =>
    simp only [Left] at h ⊢
    subst h
    exact hok x rfl lim live hl
  | err x =>
    simp only [Left] at h ⊢
    subst h
    have := herr x rfl lim live hl
    rwa [Nat.add_assoc]
  | panic x =>
    simp only [Left] at h ⊢
    subst h
    exact hp x rfl lim live hl
  | timeout =>
    simp only [ht]
    exact ⟨l, rfl, trivial⟩

theorem Uses.bind {m : H ε α} {o : Outcome ε α} {a : Nat} {s : α → Nat} {d k : Nat} {f : α → H ε β}
    {g : α → Outcome ε β} {t : β → Nat} (h : Uses m o a s d k)
    (hok : ∀ x, o = .ok x → Uses (f x) (g x) (s x) t d k) : Uses (m >>= f) (o >>= g) a t d k := by
  show Uses (H.bind m f) (o.bind g) a t d k
  rw [bind_eq]
  refine Uses.thenDo (g := fun o => o.bind g) h hok (fun e _ => ?_) (fun x _ => Uses.panic rfl) ⟨rfl, rfl⟩
  exact Uses.err rfl

/-- A step that returns and changes nothing in the plain code. -/
theorem Uses.then {m : H ε α} {x : α} {a : Nat} {s : α → Nat} {d k : Nat} {f : α → H ε β}
    {o : Outcome ε β} {t : β → Nat} (h : Uses m (.ok x) a s d k) (hf : Uses (f x) o (s x) t d k) : Uses (m >>= f) o a t d k :=
  Uses.bind (g := fun _ => o) h fun y e => by cases e; exact hf

theorem Uses.fail {e : CompileError} {a : Nat} {s : α → Nat} {k : Nat} (h : a + ownedError e ≤ k) :
    Uses (fail e : H CompileError α) (.err e) a s a k :=
  Uses.then (Uses.alloc h) (Uses.err rfl)

theorem Uses.onError {n : Nat} {m : H ε α} {o : Outcome ε α} {a : Nat} {s : α → Nat} {d k : Nat} (h : Uses m o a s (d + n) k) :
    Uses (onError n m) o a s d k := by
  have := Uses.thenDo (f := fun
      | .err e => Memory.free n >>= fun _ => Memory.ret (.err e)
      | .panic t => Memory.free n >>= fun _ => Memory.ret (.panic t)
      | o => Memory.ret o) (g := fun o => o) (t := s) (d' := d) h
    (fun x _ => Uses.ok rfl) (fun e _ => Uses.then (Uses.free (by omega)) (Uses.err (by omega)))
    (fun x _ => Uses.then (Uses.free (by omega)) (Uses.panic (by omega))) ⟨rfl, rfl⟩
  exact this

theorem Uses.dropAfter {n : Nat} {m : H ε α} {o : Outcome ε α} {a : Nat} {s : α → Nat} {d k : Nat}
    (h : Uses m o a (fun x => s x + n) (d + n) k) : Uses (dropAfter n m) o a s d k := by
  have := Uses.thenDo (f := fun
      | .ok a => Memory.free n >>= fun _ => Memory.ret (.ok a)
      | .err e => Memory.free n >>= fun _ => Memory.ret (.err e)
      | .panic t => Memory.free n >>= fun _ => Memory.ret (.panic t)
      | .timeout => Memory.ret .timeout) (g := fun o => o) (t := s) (d' := d) h
    (fun x _ => Uses.then (Uses.free (by omega)) (Uses.ok (by omega)))
    (fun e _ => Uses.then (Uses.free (by omega)) (Uses.err (by omega)))
    (fun x _ => Uses.then (Uses.free (by omega)) (Uses.panic (by omega))) ⟨rfl, rfl⟩
  exact this

end Rescan.Memory
