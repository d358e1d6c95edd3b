import Verif.Model.TreeBorrows
import Verif.Proofs.Borrows
/-! # Borrow trees of the code: lemmas for C99 -/
namespace Rescan
namespace TreeBorrows
open Borrows (Access Place Boxed reaches)
open Borrows.M (everything)
open M

/-! ## One tree -/

/-- The new permission of a node, where it is defined. -/
def upd (calls path : List Nat) (k : Access) (skip : Node → Bool) (x : Node) : Node :=
  { x with perm := (if skip x then some x.perm
      else step (x.isProtected calls) (path.contains x.tag) k x.perm).getD x.perm }

theorem accessAll_eq (calls path : List Nat) (k : Access) (skip : Node → Bool) : ∀ s : Tree,
    (∀ x ∈ s, skip x = true ∨ ∃ p, step (x.isProtected calls) (path.contains x.tag) k x.perm = some p) →
    accessAll calls path k skip s = some (s.map (upd calls path k skip))
  | [], _ => rfl
  | x :: xs, h => by
    have ih := accessAll_eq calls path k skip xs (fun y hy => h y (List.mem_cons_of_mem _ hy))
    unfold accessAll
    rw [ih]
    rcases h x (by simp) with hx | ⟨p, hp⟩
    · simp [hx, upd]
    · by_cases hk : skip x = true
      · simp [hk, upd]
      · simp only [if_neg hk, hp, List.map_cons, upd, Option.getD_some]

theorem accessAll_none (calls path : List Nat) (k : Access) (s : Tree) (x : Node) (hx : x ∈ s)
    (h : step (x.isProtected calls) (path.contains x.tag) k x.perm = none) :
    accessAll calls path k (fun _ => false) s = none := by
  induction s with
  | nil => cases hx
  | cons y ys ih =>
    unfold accessAll
    rcases List.mem_cons.1 hx with rfl | hx
    · simp only [Bool.false_eq_true, if_false, h]
    · rw [ih hx]
      cases (if (fun _ => false) y = true then some y.perm
        else step (y.isProtected calls) (path.contains y.tag) k y.perm) <;> rfl

theorem node_eq {s : Tree} (hn : (s.map Node.tag).Nodup) {g : Node} (hg : g ∈ s) : node g.tag s = some g := by
  unfold node
  induction s with
  | nil => cases hg
  | cons x xs ih =>
    rw [List.map_cons, List.nodup_cons] at hn
    rw [List.find?_cons]
    rcases List.mem_cons.1 hg with rfl | hg
    · simp
    · have : x.tag ≠ g.tag := fun h => hn.1 (by rw [h]; exact List.mem_map_of_mem hg)
      have h2 : (x.tag == g.tag) = false := by simpa using this
      rw [h2]
      exact ih hn.2 hg

theorem node_none {s : Tree} {t : Nat} (h : ∀ x ∈ s, x.tag ≠ t) : node t s = none := by
  unfold node
  rw [List.find?_eq_none]
  intro x hx
  simpa using h x hx

theorem same_node {s : Tree} (hn : (s.map Node.tag).Nodup) {x y : Node} (hx : x ∈ s) (hy : y ∈ s) (h : x.tag = y.tag) :
    x = y := by
  have h1 := node_eq hn hx
  rw [h, node_eq hn hy] at h1
  exact (Option.some.inj h1).symm

/-- The shape of a tree: an active root with tag `t0`; different tags below `n`; apart from the node `u`, no node is
protected by an active call. -/
structure Shape (t0 n : Nat) (calls : List Nat) (u : Option Nat) (s : Tree) : Prop where
  root : ∃ x ∈ s, x.tag = t0 ∧ x.path = [t0] ∧ x.perm = .active ∧ x.protector = none
  nodup : (s.map Node.tag).Nodup
  lt : ∀ x ∈ s, x.tag < n
  paths : ∀ x ∈ s, ∀ t ∈ x.path, t < n
  guard : ∀ x ∈ s, ∀ c, x.protector = some c → c < n ∧ (u ≠ some x.tag → c ∉ calls)
  other : u ≠ some t0

/-- A map that only changes permissions and leaves the root active keeps the shape. -/
theorem Shape.map {t0 n : Nat} {calls : List Nat} {u : Option Nat} {s : Tree} (h : Shape t0 n calls u s) (f : Node → Perm)
    (hf : ∀ x ∈ s, x.tag = t0 → f x = .active) :
    Shape t0 n calls u (s.map (fun x => { x with perm := f x })) where
  root := by
    obtain ⟨x, hx, h1, h2, h3, h4⟩ := h.root
    exact ⟨{ x with perm := f x }, List.mem_map_of_mem (f := fun x => { x with perm := f x }) hx, h1, h2, hf x hx h1, h4⟩
  nodup := by rw [List.map_map]; exact h.nodup
  lt := by
    intro x hx
    obtain ⟨y, hy, rfl⟩ := List.mem_map.1 hx
    exact h.lt y hy
  paths := by
    intro x hx
    obtain ⟨y, hy, rfl⟩ := List.mem_map.1 hx
    exact h.paths y hy
  guard := by
    intro x hx
    obtain ⟨y, hy, rfl⟩ := List.mem_map.1 hx
    exact h.guard y hy
  other := h.other

/-- Time passes. -/
theorem Shape.mono {t0 n n' : Nat} {calls calls' : List Nat} {u : Option Nat} {s : Tree} (h : Shape t0 n calls u s)
    (hn : n ≤ n') (hc : ∀ c ∈ calls', c ∈ calls ∨ n ≤ c) : Shape t0 n' calls' u s where
  root := h.root
  nodup := h.nodup
  lt := fun x hx => Nat.lt_of_lt_of_le (h.lt x hx) hn
  paths := fun x hx t ht => Nat.lt_of_lt_of_le (h.paths x hx t ht) hn
  guard := fun x hx c h1 => by
    obtain ⟨h2, h3⟩ := h.guard x hx c h1
    refine ⟨by omega, fun hu hm => ?_⟩
    rcases hc c hm with h4 | h4
    · exact h3 hu h4
    · omega
  other := h.other

/-- A new node. -/
theorem Shape.push {t0 n : Nat} {calls : List Nat} {u : Option Nat} {s : Tree} (h : Shape t0 n calls none s) (x : Node)
    (hx : x.tag = n) (hp : ∀ t ∈ x.path, t < n + 1) (ht : t0 < n) (hu : u = none ∨ u = some n)
    (hc : ∀ c, x.protector = some c → c < n + 1 ∧ (u = none → c ∉ calls)) : Shape t0 (n + 1) calls u (s ++ [x]) where
  root := by
    obtain ⟨y, hy, h1⟩ := h.root
    exact ⟨y, by simp [hy], h1⟩
  nodup := by
    rw [List.map_append, List.nodup_append]
    refine ⟨h.nodup, by simp, ?_⟩
    intro a ha b hb
    obtain ⟨y, hy, rfl⟩ := List.mem_map.1 ha
    simp only [List.map_cons, List.map_nil, List.mem_singleton] at hb
    have := h.lt y hy
    omega
  lt := by
    intro y hy
    rcases List.mem_append.1 hy with hy | hy
    · have := h.lt y hy; omega
    · rw [List.mem_singleton.1 hy]; omega
  paths := by
    intro y hy
    rcases List.mem_append.1 hy with hy | hy
    · intro t ht; have := h.paths y hy t ht; omega
    · rw [List.mem_singleton.1 hy]; exact hp
  guard := by
    intro y hy c h1
    rcases List.mem_append.1 hy with hy | hy
    · obtain ⟨h2, h3⟩ := h.guard y hy c h1
      exact ⟨by omega, fun _ => h3 (by simp)⟩
    · rw [List.mem_singleton.1 hy] at h1 ⊢
      obtain ⟨h2, h3⟩ := hc c h1
      refine ⟨h2, fun h4 => ?_⟩
      rcases hu with hu | hu
      · exact h3 hu
      · rw [hu, hx] at h4; exact absurd rfl h4
  other := by
    rcases hu with hu | hu
    · rw [hu]; simp
    · rw [hu]; intro h1; have := Option.some.inj h1; omega

/-- The end of the protection of `u`. -/
theorem Shape.free {t0 n c : Nat} {calls : List Nat} {u : Option Nat} {s : Tree} (h : Shape t0 n calls u s)
    (hu : ∀ x ∈ s, u = some x.tag → ∀ d, x.protector = some d → d = c) : Shape t0 n (calls.filter (· ≠ c)) none s where
  root := h.root
  nodup := h.nodup
  lt := h.lt
  paths := h.paths
  guard := fun x hx d h1 => by
    obtain ⟨h2, h3⟩ := h.guard x hx d h1
    refine ⟨h2, fun _ hm => ?_⟩
    rw [List.mem_filter] at hm
    by_cases hx' : u = some x.tag
    · have := hu x hx hx' d h1
      simp [this] at hm
    · exact h3 hx' hm.1
  other := by simp

theorem Shape.unprotected {t0 n : Nat} {calls : List Nat} {u : Option Nat} {s : Tree} (h : Shape t0 n calls u s) {x : Node}
    (hx : x ∈ s) (hu : u ≠ some x.tag) : x.isProtected calls = false := by
  unfold Node.isProtected
  cases hp : x.protector with
  | none => rfl
  | some c =>
    have := (h.guard x hx c hp).2 hu
    simp [this]

/-- A node may be used for an access. -/
def Usable (calls : List Nat) (k : Access) (x : Node) : Prop := ∃ p, step (x.isProtected calls) true k x.perm = some p

/-- An access through `g` if the nodes above it allow it and `u`, if protected, is among them. -/
theorem Shape.byNode {t0 n : Nat} {calls : List Nat} {u : Option Nat} {s : Tree} (h : Shape t0 n calls u s) {g : Node}
    (k : Access) (h0 : t0 ∈ g.path) (hu : ∀ t, u = some t → t ∈ g.path)
    (hok : ∀ x ∈ s, x.tag ∈ g.path → Usable calls k x) (skip : Node → Bool) :
    accessAll calls g.path k skip s = some (s.map (upd calls g.path k skip)) ∧
    Shape t0 n calls u (s.map (upd calls g.path k skip)) := by
  have key : ∀ x ∈ s, ∃ p, step (x.isProtected calls) (g.path.contains x.tag) k x.perm = some p := by
    intro x hx
    by_cases hp : x.tag ∈ g.path
    · have : g.path.contains x.tag = true := by simpa using hp
      rw [this]; exact hok x hx hp
    · have h1 : g.path.contains x.tag = false := by simpa using hp
      have h2 := h.unprotected hx (fun he => hp (hu _ he))
      rw [h1, h2]
      cases k <;> cases x.perm <;> exact ⟨_, rfl⟩
  refine ⟨accessAll_eq _ _ _ _ _ (fun x hx => .inr (key x hx)), ?_⟩
  apply h.map
  intro x hx hxt
  obtain ⟨y, hy, h1, h2, h3, h4⟩ := h.root
  have : x = y := same_node h.nodup hx hy (by rw [hxt, h1])
  subst this
  by_cases hs : skip x = true
  · simp [hs, h3]
  · have h5 : g.path.contains x.tag = true := by simpa [hxt] using h0
    rw [if_neg hs, h5, h3]
    cases k <;> rfl

/-- The root may always be used. -/
theorem Shape.rootUsable {t0 n : Nat} {calls : List Nat} {u : Option Nat} {s : Tree} (h : Shape t0 n calls u s) (k : Access)
    {x : Node} (hx : x ∈ s) (hxt : x.tag = t0) : Usable calls k x := by
  obtain ⟨y, hy, h1, h2, h3, h4⟩ := h.root
  have : x = y := same_node h.nodup hx hy (by rw [hxt, h1])
  subst this
  unfold Usable
  rw [h3]
  cases k <;> exact ⟨_, rfl⟩

/-- An access through the root. -/
theorem Shape.byRoot {t0 n : Nat} {calls : List Nat} {s : Tree} (h : Shape t0 n calls none s) (k : Access) :
    access calls t0 k s = some (s.map (upd calls [t0] k (fun _ => false))) ∧
    Shape t0 n calls none (s.map (upd calls [t0] k (fun _ => false))) := by
  obtain ⟨y, hy, h1, h2, h3, h4⟩ := h.root
  unfold TreeBorrows.access
  have hnode := node_eq h.nodup hy
  rw [h1] at hnode
  rw [hnode]
  simp only
  rw [h2]
  have := h.byNode (g := y) k (by rw [h2]; simp) (by simp) (by
    intro x hx hp
    rw [h2] at hp
    exact h.rootUsable k hx (by simpa using hp)) (fun _ => false)
  rw [h2] at this
  exact this

/-! ## The pointer -/

/-- The pointer `ptr` may be read through (`b`), or is dead. -/
def PtrIs (t0 ptr : Nat) (b : Bool) (s : Tree) : Prop :=
  ∃ x ∈ s, x.tag = ptr ∧ t0 ∈ x.path ∧ ptr ∈ x.path ∧
    if b then ∀ y ∈ s, y.tag ∈ x.path → y.tag = t0 ∨ y.perm = .frozen else x.perm = .disabled

theorem upd_tag (calls path : List Nat) (k : Access) (skip : Node → Bool) (x : Node) :
    (upd calls path k skip x).tag = x.tag := rfl

theorem upd_path (calls path : List Nat) (k : Access) (skip : Node → Bool) (x : Node) :
    (upd calls path k skip x).path = x.path := rfl

/-- A dead pointer stays dead. -/
theorem upd_disabled (calls path : List Nat) (k : Access) (skip : Node → Bool) (x : Node) (hx : x.perm = .disabled) :
    (upd calls path k skip x).perm = .disabled := by
  unfold upd
  rw [hx]
  simp only
  cases skip x with
  | true => rfl
  | false => cases x.isProtected calls <;> cases path.contains x.tag <;> cases k <;> rfl

/-- Reading keeps frozen nodes. -/
theorem upd_frozen (calls path : List Nat) (skip : Node → Bool) (x : Node) (hx : x.perm = .frozen) :
    (upd calls path .read skip x).perm = .frozen := by
  unfold upd
  rw [hx]
  simp only
  cases skip x with
  | true => rfl
  | false => cases x.isProtected calls <;> cases path.contains x.tag <;> rfl

theorem ptr_dead {t0 ptr : Nat} {s : Tree} (calls path : List Nat) (k : Access) (skip : Node → Bool)
    (h : PtrIs t0 ptr false s) : PtrIs t0 ptr false (s.map (upd calls path k skip)) := by
  obtain ⟨x, hx, h1, h2, h3, h4⟩ := h
  exact ⟨_, List.mem_map_of_mem hx, h1, h2, h3, upd_disabled _ _ _ _ _ h4⟩

theorem ptr_read {t0 ptr : Nat} {b : Bool} {s : Tree} (calls path : List Nat) (skip : Node → Bool)
    (h : PtrIs t0 ptr b s) : PtrIs t0 ptr b (s.map (upd calls path .read skip)) := by
  cases b with
  | false => exact ptr_dead _ _ _ _ h
  | true =>
    obtain ⟨x, hx, h1, h2, h3, h4⟩ := h
    refine ⟨_, List.mem_map_of_mem hx, h1, h2, h3, ?_⟩
    intro y hy hp
    obtain ⟨z, hz, rfl⟩ := List.mem_map.1 hy
    rcases h4 z hz hp with h5 | h5
    · exact .inl h5
    · exact .inr (upd_frozen _ _ _ _ h5)

/-- A foreign write ends the pointer. -/
theorem ptr_write {t0 ptr n : Nat} {b : Bool} {s : Tree} {calls path : List Nat} {u : Option Nat}
    (hs : Shape t0 n calls u s) (hp : ptr ∉ path) (hu : u ≠ some ptr) (h : PtrIs t0 ptr b s) :
    PtrIs t0 ptr false (s.map (upd calls path .write (fun _ => false))) := by
  obtain ⟨x, hx, h1, h2, h3, h4⟩ := h
  refine ⟨_, List.mem_map_of_mem hx, h1, h2, h3, ?_⟩
  have h5 : path.contains x.tag = false := by rw [h1]; simpa using hp
  have h6 := hs.unprotected hx (by rw [h1]; exact hu)
  show (upd calls path .write (fun _ => false) x).perm = .disabled
  unfold upd
  simp only [Bool.false_eq_true, if_false]
  rw [h5, h6]
  cases x.perm <;> rfl

theorem ptr_push {t0 ptr n : Nat} {b : Bool} {s : Tree} {calls : List Nat} {u : Option Nat} (hs : Shape t0 n calls u s)
    (h : PtrIs t0 ptr b s) (x : Node) (hx : x.tag = n) : PtrIs t0 ptr b (s ++ [x]) := by
  obtain ⟨y, hy, h1, h2, h3, h4⟩ := h
  refine ⟨y, by simp [hy], h1, h2, h3, ?_⟩
  cases b with
  | false => exact h4
  | true =>
    intro z hz hp
    rcases List.mem_append.1 hz with hz | hz
    · exact h4 z hz hp
    · rw [List.mem_singleton.1 hz, hx] at hp
      have := hs.paths y hy n hp
      omega

/-! ## One place while a call lasts -/

/-- The shape of a tree in which the call `c` may hold a pointer with tag `h`, made from the root; `wr`: a mutable one. -/
structure Held (t0 n : Nat) (calls : List Nat) (c : Nat) (h : Option Nat) (wr : Bool) (s : Tree) : Prop where
  shape : Shape t0 n calls h s
  held : ∀ u, h = some u → c ∈ calls ∧ ∃ x ∈ s, x.tag = u ∧ x.path = [u, t0] ∧ x.protector = some c ∧
    if wr then x.perm = .reserved ∨ x.perm = .active else x.perm = .frozen

/-- The pointer, while a call may hold a pointer with tag `h`. -/
structure PtrOk (t0 ptr : Nat) (b : Bool) (h : Option Nat) (s : Tree) : Prop where
  isPtr : PtrIs t0 ptr b s
  root : ptr ≠ t0
  other : h ≠ some ptr
  active : ∀ x ∈ s, h = some x.tag → x.perm = .active → b = false

theorem Held.unheld {t0 n c c' : Nat} {calls : List Nat} {wr wr' : Bool} {s : Tree} (h : Held t0 n calls c none wr s) :
    Held t0 n calls c' none wr' s :=
  ⟨h.shape, fun u hu => by cases hu⟩

theorem PtrOk.unheld {t0 ptr : Nat} {b : Bool} {s : Tree} (h1 : PtrIs t0 ptr b s) (h2 : ptr ≠ t0) :
    PtrOk t0 ptr b none s :=
  ⟨h1, h2, by simp, fun _ _ h => by cases h⟩

section place
variable {t0 n c ptr : Nat} {calls : List Nat} {wr b : Bool} {s : Tree}

/-- An access through the root of a place that is not held. -/
theorem Held.byRoot (h : Held t0 n calls c none wr s) (k : Access) :
    ∃ s', access calls t0 k s = some s' ∧ Held t0 n calls c none wr s' ∧
      (PtrOk t0 ptr b none s → PtrOk t0 ptr (b && k = .read) none s') := by
  obtain ⟨h1, h2⟩ := h.shape.byRoot k
  refine ⟨_, h1, ⟨h2, fun u hu => by cases hu⟩, fun hp => .unheld ?_ hp.root⟩
  cases k with
  | read => rw [show (b && decide (Access.read = Access.read)) = b by simp]; exact ptr_read _ _ _ hp.isPtr
  | write =>
    rw [show (b && decide (Access.write = Access.read)) = false by simp]
    exact ptr_write h.shape (by simpa using hp.root) (by simp) hp.isPtr

/-- An access through a held pointer, or its release. -/
theorem Held.byHeld {u : Nat} (h : Held t0 n calls c (some u) wr s) (k : Access) (skip : Node → Bool)
    (hskip : ∀ x, skip x = true → x.tag ≠ u) (hk : k = .write → wr = true) :
    ∃ g ∈ s, node u s = some g ∧ g.path = [u, t0] ∧
    ∃ s', accessAll calls [u, t0] k skip s = some s' ∧ Held t0 n calls c (some u) wr s' ∧
      (PtrOk t0 ptr b (some u) s → (k = .read ∨ b = false ∨ skip = fun _ => false) →
        PtrOk t0 ptr (b && k = .read) (some u) s') := by
  obtain ⟨hc, g, hg, g1, g2, g3, g4⟩ := h.held u rfl
  have hnode := node_eq h.shape.nodup hg
  rw [g1] at hnode
  have huse : Usable calls k g := by
    unfold Usable
    cases wr with
    | true =>
      rcases g4 with g4 | g4 <;> rw [g4] <;> cases k <;> exact ⟨_, rfl⟩
    | false =>
      have g5 : g.perm = .frozen := g4
      rw [g5]
      cases k with
      | read => exact ⟨_, rfl⟩
      | write => cases hk rfl
  have hone : ∀ x ∈ s, x.tag = u → x = g := fun x hx e => same_node h.shape.nodup hx hg (by rw [e, g1])
  obtain ⟨h1, h2⟩ := h.shape.byNode (g := g) k (by rw [g2]; simp) (by
    intro t ht; cases ht; rw [g2]; simp) (by
    intro x hx hp
    rw [g2] at hp
    rcases List.mem_cons.1 hp with hp | hp
    · rw [hone x hx hp]; exact huse
    · exact h.shape.rootUsable k hx (by simpa using hp)) skip
  rw [g2] at h1 h2
  have hsk : skip g = false := by
    cases e : skip g with
    | false => rfl
    | true => exact absurd g1 (hskip g e)
  have hmem : [u, t0].contains g.tag = true := by rw [g1]; simp
  -- the permission of the held node afterwards
  have hperm : (upd calls [u, t0] k skip g).perm = if k = .write then .active else g.perm := by
    unfold upd
    simp only [hsk, Bool.false_eq_true, if_false, hmem]
    cases k with
    | read =>
      cases wr with
      | true => rcases g4 with g4 | g4 <;> rw [g4] <;> rfl
      | false =>
        have g5 : g.perm = .frozen := g4
        rw [g5]; rfl
    | write =>
      cases wr with
      | false => cases hk rfl
      | true => rcases g4 with g4 | g4 <;> rw [g4] <;> rfl
  refine ⟨g, hg, hnode, g2, _, h1, ⟨h2, ?_⟩, ?_⟩
  · intro u' hu'
    cases hu'
    refine ⟨hc, _, List.mem_map_of_mem hg, g1, g2, g3, ?_⟩
    rw [hperm]
    cases k with
    | read => simpa using g4
    | write => rw [hk rfl]; simp
  · intro hp hcase
    cases k with
    | read =>
      rw [show (b && decide (Access.read = Access.read)) = b by simp]
      refine ⟨ptr_read _ _ _ hp.isPtr, hp.root, hp.other, ?_⟩
      intro x hx hxu hxa
      obtain ⟨y, hy, rfl⟩ := List.mem_map.1 hx
      have hyu : y.tag = u := (Option.some.inj hxu).symm
      rw [hone y hy hyu] at hxa
      rw [hperm] at hxa
      exact hp.active g hg (by rw [g1]) (by simpa using hxa)
    | write =>
      rw [show (b && decide (Access.write = Access.read)) = false by simp]
      refine ⟨?_, hp.root, hp.other, fun _ _ _ _ => rfl⟩
      rcases hcase with h3 | h3 | h3
      · cases h3
      · subst h3; exact ptr_dead _ _ _ _ hp.isPtr
      · subst h3
        refine ptr_write h.shape ?_ hp.other hp.isPtr
        have e1 := hp.root
        have e2 : u ≠ ptr := fun e => hp.other (by rw [e])
        simp only [List.mem_cons, List.not_mem_nil, or_false, not_or]
        exact ⟨fun e => e2 e.symm, e1⟩

/-- An access through a held pointer. -/
theorem Held.touch {u : Nat} (h : Held t0 n calls c (some u) wr s) (k : Access) (hk : k = .write → wr = true) :
    ∃ s', access calls u k s = some s' ∧ Held t0 n calls c (some u) wr s' ∧
      (PtrOk t0 ptr b (some u) s → PtrOk t0 ptr (b && k = .read) (some u) s') := by
  obtain ⟨g, _, h1, h2, s', h3, h4, h5⟩ := h.byHeld (ptr := ptr) (b := b) k (fun _ => false) (by simp) hk
  refine ⟨s', ?_, h4, fun hp => h5 hp (.inr (.inr rfl))⟩
  unfold access
  rw [h1]
  simp only
  rw [h2]; exact h3

/-- The release of a held pointer. -/
theorem Held.releaseTag {u : Nat} (h : Held t0 n calls c (some u) wr s) :
    ∃ s', releaseTag calls u s = some s' ∧ Held t0 n calls c (some u) wr s' ∧
      (PtrOk t0 ptr b (some u) s → PtrOk t0 ptr b (some u) s') := by
  obtain ⟨_, g, hg, g1, g2, g3, g4⟩ := h.held u rfl
  have hnode := node_eq h.shape.nodup hg
  rw [g1] at hnode
  unfold TreeBorrows.releaseTag
  rw [hnode]
  simp only
  rw [g2]
  have hk : (if g.perm = .active then Access.write else Access.read) = .write → wr = true := by
    intro e
    cases wr with
    | true => rfl
    | false =>
      have g5 : g.perm = .frozen := g4
      rw [g5] at e; cases e
  obtain ⟨_, _, _, _, s', h3, h4, h5⟩ := h.byHeld (ptr := ptr) (b := b)
    (if g.perm = .active then Access.write else Access.read) (fun x => x.path.contains u && x.tag != u)
    (by intro x hx; simp only [Bool.and_eq_true, bne_iff_ne] at hx; exact hx.2) hk
  refine ⟨s', h3, h4, fun hp => ?_⟩
  by_cases ha : g.perm = .active
  · have hb := hp.active g hg (by rw [g1]) ha
    have := h5 hp (.inr (.inl hb))
    rw [hb] at this ⊢
    simpa using this
  · have := h5 hp (.inl (by rw [if_neg ha]))
    rw [if_neg ha] at this
    simpa using this

theorem Held.releaseTags {u : Option Nat} : ∀ (l : List Nat) (s : Tree), (∀ t ∈ l, u = some t) →
    Held t0 n calls c u wr s →
    ∃ s', releaseTags calls l s = some s' ∧ Held t0 n calls c u wr s' ∧ (PtrOk t0 ptr b u s → PtrOk t0 ptr b u s')
  | [], s, _, h => ⟨s, rfl, h, id⟩
  | t :: l, s, hl, h => by
    have ht := hl t (by simp)
    subst ht
    obtain ⟨s1, h1, h2, h3⟩ := h.releaseTag (ptr := ptr) (b := b)
    obtain ⟨s2, h4, h5, h6⟩ := Held.releaseTags l s1 (fun x hx => hl x (by simp [hx])) h2
    refine ⟨s2, ?_, h5, fun hp => h6 (h3 hp)⟩
    unfold TreeBorrows.releaseTags
    rw [h1]; exact h4

/-- The end of the call. -/
theorem Held.release {u : Option Nat} (hc : c ∈ calls) (h : Held t0 n calls c u wr s) :
    ∃ s', release calls c s = some s' ∧ Held t0 n (calls.filter (· ≠ c)) 0 none true s' ∧
      (PtrOk t0 ptr b u s → PtrOk t0 ptr b none s') := by
  obtain ⟨s', h1, h2, h3⟩ := Held.releaseTags (ptr := ptr) (b := b) (u := u)
    ((s.filter (fun x => x.protector == some c)).map Node.tag) s (by
    intro t ht
    obtain ⟨x, hx, rfl⟩ := List.mem_map.1 ht
    rw [List.mem_filter] at hx
    have hp : x.protector = some c := by simpa using hx.2
    by_cases e : u = some x.tag
    · exact e
    · exact absurd hc ((h.shape.guard x hx.1 c hp).2 e)) h
  refine ⟨s', h1, ⟨h2.shape.free ?_, fun _ hu => by cases hu⟩, fun hp => .unheld (h3 hp).isPtr hp.root⟩
  intro x hx hu d hd
  obtain ⟨_, g, hg, g1, _, g3, _⟩ := h2.held _ hu
  rw [same_node h2.shape.nodup hx hg g1.symm, g3] at hd
  exact (Option.some.inj hd).symm

/-- A new pointer made from the root. -/
theorem Held.retag (h : Held t0 n calls c none wr s) (hlt : t0 < n) (perm : Perm) (pr : Option Nat)
    (hpr : pr = none ∨ pr = some c ∧ c ∈ calls ∧ c < n ∧ if wr then perm = .reserved else perm = .frozen) :
    ∃ s', retag calls t0 n perm pr s = some s' ∧ Held t0 (n + 1) calls c (pr.map fun _ => n) wr s' ∧
      (PtrOk t0 ptr b none s → ptr < n → PtrOk t0 ptr b (pr.map fun _ => n) s') := by
  obtain ⟨y, hy, h1, h2, h3, h4⟩ := h.shape.root
  have hnode := node_eq h.shape.nodup hy
  rw [h1] at hnode
  obtain ⟨a1, a2⟩ := h.shape.byRoot .read
  refine ⟨_, ?_, ⟨a2.push (u := pr.map fun _ => n) ⟨n, n :: y.path, perm, pr⟩ rfl ?_ hlt ?_ ?_, ?_⟩, ?_⟩
  · unfold TreeBorrows.retag
    rw [hnode]
    simp only
    rw [a1]; rfl
  · intro t ht
    rw [h2] at ht
    rcases List.mem_cons.1 ht with rfl | ht
    · exact Nat.lt_succ_self _
    · have : t = t0 := by simpa using ht
      omega
  · rcases hpr with rfl | ⟨rfl, _⟩
    · exact .inl rfl
    · exact .inr rfl
  · intro d hd
    rcases hpr with rfl | ⟨rfl, e1, e2, _⟩
    · cases hd
    · cases hd; exact ⟨by omega, fun h => by cases h⟩
  · intro u hu
    rcases hpr with rfl | ⟨rfl, e1, e2, e3⟩
    · cases hu
    · cases hu
      refine ⟨e1, _, List.mem_append_right _ (List.mem_singleton.2 rfl), rfl, by simp only [h2], rfl, ?_⟩
      cases wr with
      | true => exact .inl e3
      | false => exact e3
  · intro hp hlt'
    refine ⟨ptr_push a2 (ptr_read _ _ _ hp.isPtr) _ rfl, hp.root, ?_, ?_⟩
    · rcases hpr with rfl | ⟨rfl, _⟩
      · simp
      · intro e; have e' : n = ptr := Option.some.inj e; omega
    · rcases hpr with rfl | ⟨rfl, e1, e2, e3⟩
      · intro _ _ h; cases h
      · intro x hx hxu hxa
        rcases List.mem_append.1 hx with hx | hx
        · have := a2.lt x hx
          have h5 : n = x.tag := Option.some.inj hxu
          omega
        · rw [List.mem_singleton.1 hx] at hxa
          have h5 : perm = .active := hxa
          rw [h5] at e3
          cases wr <;> cases e3

/-- One reference made from a pointer and used. -/
theorem Held.follow {t : Nat} (h : Held t0 n calls c none wr s) (hp : PtrIs t0 t true s) (hlt : t0 < n) :
    ∃ s1 s2, TreeBorrows.retag calls t n .frozen none s = some s1 ∧ access calls n .read s1 = some s2 ∧
      Held t0 (n + 1) calls c none wr s2 ∧ (PtrOk t0 ptr b none s → PtrOk t0 ptr b none s2) := by
  obtain ⟨g, hg, g1, g2, g3, g4⟩ := hp
  have hnode := node_eq h.shape.nodup hg
  rw [g1] at hnode
  have huse : ∀ x ∈ s, x.tag ∈ g.path → Usable calls .read x := by
    intro x hx hxp
    rcases g4 x hx hxp with e | e
    · exact h.shape.rootUsable _ hx e
    · unfold Usable; rw [e]; exact ⟨_, rfl⟩
  obtain ⟨a1, a2⟩ := h.shape.byNode (g := g) .read g2 (by simp) huse (fun _ => false)
  let x : Node := ⟨n, n :: g.path, .frozen, none⟩
  have hpush : Shape t0 (n + 1) calls none (s.map (upd calls g.path .read (fun _ => false)) ++ [x]) := by
    refine a2.push x rfl ?_ hlt (.inl rfl) (fun _ h => by cases h)
    intro t ht
    rcases List.mem_cons.1 ht with rfl | ht
    · exact Nat.lt_succ_self _
    · have := h.shape.paths g hg t ht; omega
  have hxm : x ∈ s.map (upd calls g.path .read (fun _ => false)) ++ [x] := by simp
  have hnode2 : node n _ = some x := node_eq hpush.nodup hxm
  have hn : ∀ y ∈ s, y.tag ≠ n := fun y hy e => by have := h.shape.lt y hy; omega
  obtain ⟨b1, b2⟩ := hpush.byNode (g := x) .read (by show t0 ∈ n :: g.path; simp [g2]) (by simp) (by
    intro y hy hyp
    rcases List.mem_append.1 hy with hy | hy
    · obtain ⟨z, hz, rfl⟩ := List.mem_map.1 hy
      have hzp : z.tag ∈ g.path := by
        rcases List.mem_cons.1 hyp with e | e
        · exact absurd e (hn z hz)
        · exact e
      rcases g4 z hz hzp with e | e
      · exact hpush.rootUsable _ (List.mem_append_left _ (List.mem_map_of_mem hz)) e
      · unfold Usable
        rw [upd_frozen _ _ _ _ e]; exact ⟨_, rfl⟩
    · rw [List.mem_singleton.1 hy]; exact ⟨_, rfl⟩) (fun _ => false)
  refine ⟨s.map (upd calls g.path .read (fun _ => false)) ++ [x], _, ?_, ?_, ⟨b2, fun _ hu => by cases hu⟩,
    fun hp => .unheld (ptr_read _ _ _ (ptr_push a2 (ptr_read _ _ _ hp.isPtr) x rfl)) hp.root⟩
  · unfold TreeBorrows.retag TreeBorrows.access
    rw [hnode]
    simp only
    rw [a1]; rfl
  · unfold TreeBorrows.access
    rw [hnode2]; exact b1

/-- A dead pointer. -/
theorem follow_dead (hp : PtrOk t0 ptr false none s) (hs : Shape t0 n calls none s) (t' : Nat) (perm : Perm) (pr : Option Nat) :
    TreeBorrows.retag calls ptr t' perm pr s = none := by
  obtain ⟨g, hg, g1, g2, g3, g4⟩ := hp.isPtr
  have hnode := node_eq hs.nodup hg
  rw [g1] at hnode
  unfold TreeBorrows.retag TreeBorrows.access
  rw [hnode]
  simp only
  rw [accessAll_none calls g.path .read s g hg (by
    have e : g.path.contains g.tag = true := by rw [g1]; simpa using g3
    have e2 : g.perm = .disabled := g4
    rw [e, e2]; rfl)]
  rfl

end place

/-! ## Memory -/

theorem places (f : Tree → Option Tree) (R : Place → Tree → Prop) : ∀ (ps : List Place) (st : Place → Tree), ps.Nodup →
    (∀ q ∈ ps, ∃ s', f (st q) = some s' ∧ R q s') →
    ∃ st', onPlaces ps f st = some st' ∧ (∀ q ∈ ps, R q (st' q)) ∧ ∀ q, q ∉ ps → st' q = st q
  | [], st, _, _ => ⟨st, rfl, fun q h => (by cases h), fun _ _ => rfl⟩
  | p :: ps, st, hn, h => by
    rw [List.nodup_cons] at hn
    obtain ⟨s, h1, h2⟩ := h p (by simp)
    have hne : ∀ q ∈ ps, (if q = p then s else st q) = st q := by
      intro q hq
      rw [if_neg (fun e : q = p => hn.1 (e ▸ hq))]
    obtain ⟨st', h3, h4, h5⟩ := places f R ps (fun r => if r = p then s else st r) hn.2 (by
      intro q hq
      simp only [hne q hq]
      exact h q (by simp [hq]))
    refine ⟨st', ?_, ?_, ?_⟩
    · unfold onPlaces
      rw [h1]; exact h3
    · intro q hq
      rcases List.mem_cons.1 hq with rfl | hq
      · rw [h5 q hn.1]
        simpa using h2
      · exact h4 q hq
    · intro q hq
      simp only [List.mem_cons, not_or] at hq
      rw [h5 q hq.2, if_neg hq.1]

theorem mem_everything (q : Place) : q ∈ everything := by cases q <;> decide

/-- `PtrOk` for a tag; nothing for −1, which is no tag. -/
def PtrAt (t0 : Nat) (ptr : Int) (b : Bool) (h : Option Nat) (s : Tree) : Prop := 0 ≤ ptr → PtrOk t0 ptr.toNat b h s

/-- The memory while a call `c` may hold pointers made from the root `t0`. -/
structure InvH (t0 : Nat) (ptr : Int) (b wr : Bool) (held : Place → Option Nat) (c : Nat) (m : Mem) : Prop where
  places : ∀ q, Held t0 m.next m.calls c (held q) wr (m.trees q)
  pointer : PtrAt t0 ptr b (held .rm) (m.trees .rm)
  lt : ptr < m.next
  rootLt : t0 < m.next

/-- All is well: the tags `ts` are the root, and the pointer is as `b` says. -/
def Inv (ts : List Nat) (ptr : Int) (b : Bool) (m : Mem) : Prop :=
  ∃ t0, (∀ t ∈ ts, t = t0) ∧ InvH t0 ptr b true (fun _ => none) 0 m

theorem Inv.mono {ts ts' : List Nat} {ptr : Int} {b : Bool} {m : Mem} (h : Inv ts ptr b m) (hts : ∀ t ∈ ts', t ∈ ts) :
    Inv ts' ptr b m := by
  obtain ⟨t0, h1, h2⟩ := h
  exact ⟨t0, fun t ht => h1 t (hts t ht), h2⟩

section memory
variable {t0 c : Nat} {ptr : Int} {wr b : Bool} {held : Place → Option Nat} {m : Mem}

/-- A change of some places. -/
theorem InvH.change (h : InvH t0 ptr b wr held c m) (b' : Bool) (ps : List Place) (hps : ps.Nodup) (f : Tree → Option Tree)
    (hb : Place.rm ∉ ps → b' = b)
    (hf : ∀ q ∈ ps, ∃ s', f (m.trees q) = some s' ∧ Held t0 m.next m.calls c (held q) wr s' ∧
      (q = .rm → PtrAt t0 ptr b (held q) (m.trees q) → PtrAt t0 ptr b' (held q) s')) :
    ∃ st, onPlaces ps f m.trees = some st ∧ InvH t0 ptr b' wr held c { m with trees := st } ∧
      ∀ q, q ∉ ps → st q = m.trees q := by
  obtain ⟨st, h1, h2, h3⟩ := TreeBorrows.places f (fun q s' => Held t0 m.next m.calls c (held q) wr s' ∧
      (q = .rm → PtrAt t0 ptr b (held q) (m.trees q) → PtrAt t0 ptr b' (held q) s')) ps m.trees hps hf
  refine ⟨st, h1, ⟨?_, ?_, h.lt, h.rootLt⟩, h3⟩
  · intro q
    show Held t0 m.next m.calls c (held q) wr (st q)
    by_cases hq : q ∈ ps
    · exact (h2 q hq).1
    · rw [h3 q hq]; exact h.places q
  · show PtrAt t0 ptr b' (held .rm) (st .rm)
    by_cases hq : Place.rm ∈ ps
    · exact (h2 _ hq).2 rfl h.pointer
    · rw [h3 _ hq, hb hq]; exact h.pointer

/-- An access through the root to places that are not held. -/
theorem InvH.touchRoot (h : InvH t0 ptr b wr held c m) (ps : List Place) (hps : ps.Nodup) (k : Access)
    (hh : ∀ q ∈ ps, held q = none) :
    ∃ m', touch ps t0 k m = some (.ok (), m') ∧
      InvH t0 ptr (if .rm ∈ ps then b && k = .read else b) wr held c m' ∧ m'.next = m.next ∧ m'.calls = m.calls := by
  obtain ⟨st, h1, h2, _⟩ := h.change (if .rm ∈ ps then b && k = .read else b) ps hps (access m.calls t0 k)
    (fun hr => by rw [if_neg hr]) (by
    intro q hq
    have hq' := h.places q
    rw [hh q hq] at hq' ⊢
    obtain ⟨s', a1, a2, a3⟩ := hq'.byRoot (ptr := ptr.toNat) (b := b) k
    refine ⟨s', a1, a2, fun hr hp h0 => ?_⟩
    rw [if_pos (hr ▸ hq)]; exact a3 (hp h0))
  refine ⟨{ m with trees := st }, ?_, h2, rfl, rfl⟩
  unfold touch
  rw [h1]; rfl

/-- An access through a held pointer. -/
theorem InvH.touchHeld (h : InvH t0 ptr b wr held c m) (u : Nat) (ps : List Place) (hps : ps.Nodup) (k : Access)
    (hk : k = .write → wr = true) (hh : ∀ q ∈ ps, held q = some u) :
    ∃ m', touch ps u k m = some (.ok (), m') ∧
      InvH t0 ptr (if .rm ∈ ps then b && k = .read else b) wr held c m' ∧ m'.next = m.next ∧ m'.calls = m.calls := by
  obtain ⟨st, h1, h2, _⟩ := h.change (if .rm ∈ ps then b && k = .read else b) ps hps (access m.calls u k)
    (fun hr => by rw [if_neg hr]) (by
    intro q hq
    have hq' := h.places q
    rw [hh q hq] at hq' ⊢
    obtain ⟨s', a1, a2, a3⟩ := hq'.touch (ptr := ptr.toNat) (b := b) k hk
    refine ⟨s', a1, a2, fun hr hp h0 => ?_⟩
    rw [if_pos (hr ▸ hq)]; exact a3 (hp h0))
  refine ⟨{ m with trees := st }, ?_, h2, rfl, rfl⟩
  unfold touch
  rw [h1]; rfl

/-- The start of a call. -/
theorem InvH.start (h : InvH t0 ptr b wr (fun _ => none) c m) (wr' : Bool) :
    InvH t0 ptr b wr' (fun _ => none) m.next { m with next := m.next + 1, calls := m.next :: m.calls } where
  places := fun q => ⟨(h.places q).shape.mono (by show m.next ≤ m.next + 1; omega) (fun d hd => by
      rcases List.mem_cons.1 hd with rfl | hd
      · exact .inr (Nat.le_refl _)
      · exact .inl hd), fun u hu => by cases hu⟩
  pointer := h.pointer
  lt := by have := h.lt; show ptr < ((m.next + 1 : Nat) : Int); omega
  rootLt := by have := h.rootLt; show t0 < m.next + 1; omega

/-- A new pointer made from the root, held by the call. -/
theorem InvH.borrow (h : InvH t0 ptr b wr (fun _ => none) c m) (ps : List Place) (hps : ps.Nodup)
    (hc : c ∈ m.calls) (hlt : c < m.next) :
    ∃ m', reborrow ps t0 (if wr then .reserved else .frozen) (some c) m = some (.ok m.next, m') ∧
      InvH t0 ptr b wr (fun q => if q ∈ ps then some m.next else none) c m' ∧ m'.calls = m.calls ∧
      m'.next = m.next + 1 := by
  obtain ⟨st, h1, h2, h3⟩ := TreeBorrows.places (retag m.calls t0 m.next (if wr then .reserved else .frozen) (some c))
    (fun q s' => Held t0 (m.next + 1) m.calls c (some m.next) wr s' ∧
      (PtrAt t0 ptr b none (m.trees q) → ptr < m.next → PtrAt t0 ptr b (some m.next) s')) ps m.trees hps (by
    intro q hq
    obtain ⟨s', a1, a2, a3⟩ := (h.places q).retag (ptr := ptr.toNat) (b := b) h.rootLt
      (if wr then .reserved else .frozen) (some c) (.inr ⟨rfl, hc, hlt, by cases wr <;> rfl⟩)
    exact ⟨s', a1, a2, fun hp hl h0 => a3 (hp h0) (by omega)⟩)
  refine ⟨⟨st, m.next + 1, m.calls⟩, ?_, ⟨?_, ?_, ?_, ?_⟩, rfl, rfl⟩
  · unfold reborrow
    rw [h1]; rfl
  · intro q
    show Held t0 (m.next + 1) m.calls c (if q ∈ ps then some m.next else none) wr (st q)
    by_cases hq : q ∈ ps
    · rw [if_pos hq]; exact (h2 q hq).1
    · rw [if_neg hq, h3 q hq]
      exact ⟨(h.places q).shape.mono (by omega) (fun d hd => .inl hd), fun u hu => by cases hu⟩
  · show PtrAt t0 ptr b (if Place.rm ∈ ps then some m.next else none) (st .rm)
    by_cases hq : Place.rm ∈ ps
    · rw [if_pos hq]; exact (h2 _ hq).2 h.pointer h.lt
    · rw [if_neg hq, h3 _ hq]; exact h.pointer
  · have := h.lt; show ptr < ((m.next + 1 : Nat) : Int); omega
  · have := h.rootLt; show t0 < m.next + 1; omega

/-- The end of a call. -/
theorem InvH.finish (h : InvH t0 ptr b wr held c m) (hc : c ∈ m.calls) :
    ∃ st, onPlaces everything (release m.calls c) m.trees = some st ∧
      InvH t0 ptr b true (fun _ => none) 0 { m with trees := st, calls := m.calls.filter (· ≠ c) } := by
  obtain ⟨st, h1, h2, _⟩ := TreeBorrows.places (release m.calls c)
    (fun q s' => Held t0 m.next (m.calls.filter (· ≠ c)) 0 none true s' ∧
      (PtrAt t0 ptr b (held q) (m.trees q) → PtrAt t0 ptr b none s')) everything m.trees (by decide) (by
    intro q _
    obtain ⟨s', a1, a2, a3⟩ := (h.places q).release (ptr := ptr.toNat) (b := b) hc
    exact ⟨s', a1, a2, fun hp h0 => a3 (hp h0)⟩)
  exact ⟨st, h1, fun q => (h2 q (mem_everything q)).1, (h2 _ (mem_everything _)).2 h.pointer, h.lt, h.rootLt⟩

/-- The whole of a call. -/
theorem inCall_eq {α : Type} (f : Nat → M α) (r : Res α) {b' wr' : Bool} {held' : Place → Option Nat} {m' : Mem}
    (h : f m.next { m with next := m.next + 1, calls := m.next :: m.calls } = some (r, m'))
    (hi : InvH t0 ptr b' wr' held' m.next m') (hc : m.next ∈ m'.calls) :
    ∃ m'', inCall f m = some (r, m'') ∧ InvH t0 ptr b' true (fun _ => none) 0 m'' := by
  obtain ⟨st, h1, h2⟩ := hi.finish hc
  refine ⟨_, ?_, h2⟩
  unfold inCall
  rw [h]
  simp only
  rw [h1]; rfl

end memory

/-! ## Triples -/

/-- From memory with `P`, `x` is defined; if it returns, `Q` holds, and otherwise `E`. -/
def Tri {α : Type} (P : Mem → Prop) (x : M α) (Q : α → Mem → Prop) (E : Mem → Prop) : Prop :=
  ∀ m, P m → ∃ r m', x m = some (r, m') ∧ (∀ a, r = .ok a → Q a m') ∧ ((∀ a, r ≠ .ok a) → E m')

theorem tri_bind {α β : Type} {P : Mem → Prop} {x : M α} {f : α → M β} {Q : α → Mem → Prop} {R : β → Mem → Prop}
    {E : Mem → Prop} (h1 : Tri P x Q E) (h2 : ∀ a, Tri (Q a) (f a) R E) : Tri P (x >>= f) R E := by
  intro m hm
  obtain ⟨r, m', h3, h4, h5⟩ := h1 m hm
  show ∃ r m', M.bind x f m = some (r, m') ∧ _
  unfold M.bind
  rw [h3]
  cases r with
  | ok a => exact h2 a m' (h4 a rfl)
  | err e => exact ⟨_, _, rfl, (fun a ha => by cases ha), fun _ => h5 (fun a ha => by cases ha)⟩
  | panic e => exact ⟨_, _, rfl, (fun a ha => by cases ha), fun _ => h5 (fun a ha => by cases ha)⟩
  | timeout => exact ⟨_, _, rfl, (fun a ha => by cases ha), fun _ => h5 (fun a ha => by cases ha)⟩

theorem tri_pure {α : Type} {Q : α → Mem → Prop} {E : Mem → Prop} (a : α) : Tri (Q a) (pure a) Q E := by
  intro m hm
  exact ⟨.ok a, m, rfl, fun b hb => by cases hb; exact hm, fun h => absurd rfl (h a)⟩

theorem tri_weaken {α : Type} {P P' : Mem → Prop} {x : M α} {Q Q' : α → Mem → Prop} {E E' : Mem → Prop} (h : Tri P x Q E)
    (hP : ∀ m, P' m → P m) (hQ : ∀ a m, Q a m → Q' a m) (hE : ∀ m, E m → E' m) : Tri P' x Q' E' := by
  intro m hm
  obtain ⟨r, m', h1, h2, h3⟩ := h m (hP m hm)
  exact ⟨r, m', h1, fun a ha => hQ a m' (h2 a ha), fun hr => hE m' (h3 hr)⟩

section triples
variable {ts : List Nat} {ptr : Int} {b : Bool} {E : Mem → Prop} {t : Nat}

theorem tri_mutNg (ht : t ∈ ts) : Tri (Inv ts ptr b) (mutNg t) (fun t' => Inv (t' :: ts) ptr b) E := by
  intro m h
  obtain ⟨t0, h1, h2⟩ := h
  refine ⟨.ok t, m, rfl, ?_, fun h => absurd rfl (h t)⟩
  intro a ha
  cases ha
  refine ⟨t0, ?_, h2⟩
  intro x hx
  rcases List.mem_cons.1 hx with rfl | hx
  · exact h1 x ht
  · exact h1 x hx

/-- Reading or writing a place other than `rm` through the root. -/
theorem tri_touch (q : Place) (hq : q ≠ .rm) (k : Access) (ht : t ∈ ts) :
    Tri (Inv ts ptr b) (touch [q] t k) (fun _ => Inv ts ptr b) E := by
  rintro m ⟨t0, h1, h2⟩
  obtain ⟨m', h3, h4, _⟩ := h2.touchRoot [q] (by simp) k (by simp)
  rw [h1 t ht]
  refine ⟨_, m', h3, fun _ _ => ⟨t0, h1, ?_⟩, fun h => absurd rfl (h ())⟩
  rw [if_neg (by simpa using Ne.symm hq)] at h4
  exact h4

theorem tri_readAll (ht : t ∈ ts) :
    Tri (Inv ts ptr b) (touch everything t .read) (fun _ => Inv ts ptr b) E := by
  rintro m ⟨t0, h1, h2⟩
  obtain ⟨m', h3, h4, _⟩ := h2.touchRoot everything (by decide) .read (by simp)
  rw [h1 t ht]
  refine ⟨_, m', h3, fun _ _ => ⟨t0, h1, ?_⟩, fun h => absurd rfl (h ())⟩
  rw [if_pos (mem_everything _)] at h4
  simpa using h4

theorem tri_writeAll (ht : t ∈ ts) :
    Tri (Inv ts ptr b) (touch everything t .write) (fun _ => Inv ts ptr false) E := by
  rintro m ⟨t0, h1, h2⟩
  obtain ⟨m', h3, h4, _⟩ := h2.touchRoot everything (by decide) .write (by simp)
  rw [h1 t ht]
  refine ⟨_, m', h3, fun _ _ => ⟨t0, h1, ?_⟩, fun h => absurd rfl (h ())⟩
  rw [if_pos (mem_everything _)] at h4
  simpa using h4

/-- A method with `&mut self` on a field. -/
theorem method_eq {α : Type} (w : Nat → Bool) (sure : Bool) (q : Place) (x : Res α) (ht : t ∈ ts) (m : Mem)
    (h : Inv ts ptr b m) :
    ∃ m' b', methodMut w sure q t x m = some (x, m') ∧ Inv ts ptr b' m' ∧ (b = false → b' = false) ∧
      (q ≠ .rm → b' = b) ∧ (q = .rm → sure = true → b' = false) := by
  obtain ⟨t0, h1, h2⟩ := h
  rw [h1 t ht]
  have s1 := h2.start true
  obtain ⟨m1, a1, a2, a3, a4⟩ := s1.borrow [q] (by simp) (by simp) (Nat.lt_succ_self _)
  obtain ⟨m2, b1, b2, b3, b4⟩ := a2.touchHeld (m.next + 1) [q] (by simp) .read (by simp) (by simp)
  have b2' : InvH t0 ptr b true (fun q' => if q' ∈ [q] then some (m.next + 1) else none) m.next m2 := by
    have e : (if Place.rm ∈ [q] then b && decide (Access.read = Access.read) else b) = b := by simp
    rw [e] at b2; exact b2
  have hrest : ∃ m3 b', (if (sure || w m.next) = true then touch [q] (m.next + 1) .write else return ()) m2 = some (.ok (), m3) ∧
      InvH t0 ptr b' true (fun q' => if q' ∈ [q] then some (m.next + 1) else none) m.next m3 ∧ m3.calls = m2.calls ∧
      (b = false → b' = false) ∧ (q ≠ .rm → b' = b) ∧ (q = .rm → sure = true → b' = false) := by
    by_cases hw : (sure || w m.next) = true
    · rw [if_pos hw]
      obtain ⟨m3, c1, c2, c3, c4⟩ := b2'.touchHeld (m.next + 1) [q] (by simp) .write (by simp) (by simp)
      refine ⟨m3, _, c1, c2, c4, ?_, ?_, ?_⟩
      · rintro rfl; simp
      · intro hq; rw [if_neg (by simpa using Ne.symm hq)]
      · rintro rfl _; simp
    · rw [if_neg hw]
      refine ⟨m2, b, rfl, b2', rfl, id, fun _ => rfl, fun _ hs => ?_⟩
      rw [hs] at hw; simp at hw
  obtain ⟨m3, b', c1, c2, c3, c4, c5, c6⟩ := hrest
  obtain ⟨m4, d1, d2⟩ := inCall_eq (m := m) (t0 := t0) (ptr := ptr) (fun c => reborrow [q] t0 .reserved (some c) >>= fun u =>
      touch [q] u .read >>= fun _ => (if (sure || w c) = true then touch [q] u .write else return ()) >>= fun _ => lift x) x
    (m' := m3) (by
      simp only [if_true] at a1
      simp only [bind, M.bind, a1, b1, c1, lift]) c2 (by rw [c3, b4, a3]; simp)
  exact ⟨m4, b', d1, ⟨t0, h1, d2⟩, c4, c5, c6⟩

/-- Looking at the `Ng`. -/
theorem tri_look (o : Boxed) (ht : o.box ∈ ts) : Tri (Inv ts ptr b) (look o) (fun _ => Inv ts ptr b) E := by
  rintro m ⟨t0, h1, h2⟩
  have s1 := h2.start false
  obtain ⟨m1, a1, a2, a3, a4⟩ := s1.borrow everything (by decide) (by simp) (Nat.lt_succ_self _)
  obtain ⟨m2, b1, b2, b3, b4⟩ := a2.touchHeld (m.next + 1) everything (by decide) .read (by simp) (by
    intro q _; rw [if_pos (mem_everything q)])
  obtain ⟨m4, d1, d2⟩ := inCall_eq (m := m) (t0 := t0) (ptr := ptr) (fun c => reborrow everything t0 .frozen (some c) >>=
      fun u => touch everything u .read) (.ok ())
    (m' := m2) (by
      simp only [Bool.false_eq_true, if_false] at a1
      simp only [bind, M.bind, a1, b1]) b2 (by rw [b4, a3]; simp)
  refine ⟨.ok (), m4, ?_, fun _ _ => ⟨t0, h1, ?_⟩, fun h => absurd rfl (h ())⟩
  · unfold look
    rw [h1 _ ht]; exact d1
  · rw [if_pos (mem_everything _)] at d2
    simpa using d2

/-- Dropping. -/
theorem tri_drop (o : Boxed) (ht : o.box ∈ ts) : Tri (Inv ts ptr b) (dropNg o) (fun _ => Inv ts ptr false) E := by
  unfold dropNg
  refine tri_bind (tri_mutNg ht) (fun m => ?_)
  refine tri_bind (tri_readAll (by simp)) (fun _ => ?_)
  refine tri_bind (tri_writeAll (by simp)) (fun _ => ?_)
  exact tri_weaken (tri_writeAll (by simp [ht])) (fun _ h => h)
    (fun _ _ h => h.mono (by simp +contextual)) (fun _ h => h)

theorem tri_addGraph (o : Boxed) (expr : ExpressionInfo) (g : NgHolder) (ht : o.box ∈ ts) :
    Tri (Inv ts ptr b) (addGraph o expr g)
      (fun o' m => o' = { o with ng := o.ng.addGraph expr g } ∧ Inv ts ptr b m) E := by
  unfold addGraph
  refine tri_bind (tri_mutNg ht) (fun m => ?_)
  refine tri_bind (tri_mutNg (by simp)) (fun m' => ?_)
  split
  · refine tri_bind (tri_touch .rest (by simp) .write (by simp)) (fun _ => ?_)
    exact tri_weaken (tri_pure (Q := fun o' m => o' = _ ∧ Inv ts ptr b m) _)
      (fun _ h => ⟨rfl, h.mono (by simp +contextual)⟩) (fun _ _ h => h) (fun _ h => h)
  · exact tri_weaken (tri_pure (Q := fun o' m => o' = _ ∧ Inv ts ptr b m) _)
      (fun _ h => ⟨rfl, h.mono (by simp +contextual)⟩) (fun _ _ h => h) (fun _ h => h)

/-! ## Runs with a known result -/

/-- From memory with `P`, `x` is defined and gives the result `r`, and then `Q` holds. -/
def Run {α : Type} (P : Mem → Prop) (x : M α) (r : Res α) (Q : Mem → Prop) : Prop :=
  ∀ m, P m → ∃ m', x m = some (r, m') ∧ Q m'

theorem run_bind {α β : Type} {P Q R : Mem → Prop} {x : M α} {r : Res α} {f : α → M β} {s : α → Res β}
    (h1 : Run P x r Q) (h2 : ∀ a, r = .ok a → Run Q (f a) (s a) R) (h3 : (∀ a, r ≠ .ok a) → ∀ m, Q m → R m) :
    Run P (x >>= f) (r >>= s) R := by
  intro m hm
  obtain ⟨m', h4, h5⟩ := h1 m hm
  show ∃ m', M.bind x f m = some (Outcome.bind r s, m') ∧ _
  unfold M.bind
  rw [h4]
  cases r with
  | ok a => exact h2 a rfl m' h5
  | err e => exact ⟨m', rfl, h3 (fun a ha => by cases ha) m' h5⟩
  | panic e => exact ⟨m', rfl, h3 (fun a ha => by cases ha) m' h5⟩
  | timeout => exact ⟨m', rfl, h3 (fun a ha => by cases ha) m' h5⟩

/-- A step that always returns and whose value does not matter to the result. -/
theorem run_step {α β : Type} {P : Mem → Prop} {Q : α → Mem → Prop} {R : Mem → Prop} {x : M α} {f : α → M β} {s : Res β}
    (h1 : Tri P x Q (fun _ => False)) (h2 : ∀ a, Run (Q a) (f a) s R) : Run P (x >>= f) s R := by
  intro m hm
  obtain ⟨r, m', h3, h4, h5⟩ := h1 m hm
  show ∃ m', M.bind x f m = some (s, m') ∧ _
  unfold M.bind
  rw [h3]
  cases r with
  | ok a => exact h2 a m' (h4 a rfl)
  | err e => exact (h5 (fun a ha => by cases ha)).elim
  | panic e => exact (h5 (fun a ha => by cases ha)).elim
  | timeout => exact (h5 (fun a ha => by cases ha)).elim

theorem run_lift {α : Type} {P : Mem → Prop} (x : Res α) : Run P (lift x) x P :=
  fun m hm => ⟨m, rfl, hm⟩

theorem run_pure {α : Type} {P : Mem → Prop} (a : α) : Run P (pure a) (pure a) P :=
  fun m hm => ⟨m, rfl, hm⟩

theorem run_weaken {α : Type} {P P' Q Q' : Mem → Prop} {x : M α} {r : Res α} (h : Run P x r Q)
    (hP : ∀ m, P' m → P m) (hQ : ∀ m, Q m → Q' m) : Run P' x r Q' := by
  intro m hm
  obtain ⟨m', h1, h2⟩ := h m (hP m hm)
  exact ⟨m', h1, hQ m' h2⟩

/-- All is well, and the pointer is dead if `K`. -/
def Dead (ts : List Nat) (ptr : Int) (K : Prop) (m : Mem) : Prop := ∃ b, Inv ts ptr b m ∧ (K → b = false)

theorem run_method {α : Type} {K : Prop} (w : Nat → Bool) (sure : Bool) (q : Place) (x : Res α) (ht : t ∈ ts) :
    Run (Dead ts ptr K) (methodMut w sure q t x) x (Dead ts ptr K) := by
  rintro m ⟨b, h, hb⟩
  obtain ⟨m', b', h1, h2, h3, _⟩ := method_eq w sure q x ht m h
  exact ⟨m', h1, b', h2, fun hk => h3 (hb hk)⟩

theorem dead_tri {α : Type} {K : Prop} {x : M α} (h : ∀ b, Tri (Inv ts ptr b) x (fun _ => Inv ts ptr b) (fun _ => False)) :
    Tri (Dead ts ptr K) x (fun _ => Dead ts ptr K) (fun _ => False) := by
  rintro m ⟨b, hm, hb⟩
  obtain ⟨r, m', h1, h2, h3⟩ := h b m hm
  exact ⟨r, m', h1, fun a ha => ⟨b, h2 a ha, hb⟩, h3⟩

/-- All is well after `add_literal`; `re`: it got as far as the report manager, `sure`: and certainly wrote to it. -/
def After (ts : List Nat) (ptr : Int) (b re sure : Bool) (m : Mem) : Prop :=
  ∃ b', Inv ts ptr b' m ∧ (b = false → b' = false) ∧ (re = false → b' = b) ∧ (re = true → sure = true → b' = false)

theorem run_addLiteral (w : Nat → Bool) (p : Profile) (o : Boxed) (l : Ue2Literal) (i r : Nat) (hl : Bool) (som : SomType)
    (q : Bool) (ht : o.box ∈ ts) :
    Run (Inv ts ptr b) (addLiteral w p o l i r hl som q)
      (do let x ← o.ng.addLiteral p l i r hl som q; return ({ o with ng := x.1 }, x.2))
      (After ts ptr b (reaches p o.ng l) (registerWrites o.ng.rm r ⟨hl, i⟩)) := by
  rw [← Borrows.addLiteralResult_eq]
  unfold addLiteral Borrows.addLiteralResult
  refine run_step (tri_mutNg ht) (fun m1 => ?_)
  refine run_step (tri_mutNg (by simp)) (fun m => ?_)
  have hm : m ∈ m :: m1 :: ts := by simp
  have hback : ∀ (mm : Mem), reaches p o.ng l = false → Inv (m :: m1 :: ts) ptr b mm →
      After ts ptr b (reaches p o.ng l) (registerWrites o.ng.rm r ⟨hl, i⟩) mm :=
    fun mm e h => ⟨b, h.mono (by simp +contextual), id, fun _ => rfl, fun e' => by rw [e] at e'; cases e'⟩
  have hassert : (∀ a, rdebugAssert (ε := CompileError) p (!l.isEmpty) "assertion failed: !literal.is_empty()" ≠ .ok a) →
      reaches p o.ng l = false := by
    intro h
    unfold reaches
    cases p with
    | release => exact absurd rfl (h ())
    | debug =>
      cases he : l.isEmpty with
      | true => simp
      | false => rw [he] at h; exact absurd rfl (h ())
  have hassert2 : ∀ a, rdebugAssert (ε := CompileError) p (!l.isEmpty) "assertion failed: !literal.is_empty()" = .ok a →
      (p = .release || !l.isEmpty) = true := by
    intro a h
    cases p with
    | release => rfl
    | debug =>
      cases he : l.isEmpty with
      | true => rw [he] at h; cases h
      | false => rfl
  refine run_bind (run_lift _) (fun u hu => ?_) (fun h mm hi => hback mm (hassert h) hi)
  refine run_step (tri_touch .rest (by simp) .read hm) (fun _ => ?_)
  by_cases h1 : (!o.ng.cc.grey.shortcutLiterals) = true
  · rw [if_pos h1, if_pos h1]
    refine run_weaken (run_pure _) (fun _ h => h) (fun mm hi => hback mm ?_ hi)
    have : o.ng.cc.grey.shortcutLiterals = false := by simpa using h1
    simp [reaches, this]
  rw [if_neg h1, if_neg h1]
  by_cases h2 : mixedSensitivity l.iter = true
  · rw [if_pos h2, if_pos h2]
    refine run_weaken (run_pure _) (fun _ h => h) (fun mm hi => hback mm ?_ hi)
    simp [reaches, h2]
  rw [if_neg h2, if_neg h2]
  have hreach : reaches p o.ng l = true := by
    have h3 : o.ng.cc.grey.shortcutLiterals = true := by simpa using h1
    have h4 : mixedSensitivity l.iter = false := by simpa using h2
    unfold reaches
    rw [hassert2 u hu, h3, h4]; rfl
  rw [hreach]
  generalize hK : (b = false ∨ registerWrites o.ng.rm r ⟨hl, i⟩ = true) = K
  have hb2 : ∀ (mm : Mem), Dead (m :: m1 :: ts) ptr K mm →
      After ts ptr b true (registerWrites o.ng.rm r ⟨hl, i⟩) mm := by
    rintro mm ⟨b', h3, h4⟩
    rw [← hK] at h4
    exact ⟨b', h3.mono (by simp +contextual), fun h => h4 (.inl h), (fun h => by cases h), fun _ h => h4 (.inr h)⟩
  have rm' : ∀ {α : Type} (x : Res α), Run (Dead (m :: m1 :: ts) ptr K) (methodMut w false .rm m x) x
      (Dead (m :: m1 :: ts) ptr K) := fun x => run_method w false .rm x hm
  refine run_bind (Q := Dead (m :: m1 :: ts) ptr K) ?_ (fun rm _ => ?_) (fun _ mm hi => hb2 mm hi)
  · intro mm hi
    obtain ⟨m', b', e1, e2, e3, _, e5⟩ := method_eq w (registerWrites o.ng.rm r ⟨hl, i⟩) .rm
      (match o.ng.rm.registerExtReport r ⟨hl, i⟩ with
        | (_, .error e) => .err e
        | (rm, .ok ()) => .ok rm : Res ReportManager) hm mm hi
    refine ⟨m', e1, b', e2, ?_⟩
    rw [← hK]
    rintro (h | h)
    · exact e3 h
    · exact e5 rfl h
  refine run_bind (Q := Dead (m :: m1 :: ts) ptr K) ?_ (fun x _ => ?_) (fun _ mm hi => hb2 mm hi)
  · cases som with
    | none =>
      refine run_bind (Q := Dead (m :: m1 :: ts) ptr K) ?_ (fun y _ => ?_) (fun _ mm hi => hi)
      · cases hl with
        | false => exact run_pure _
        | true => exact run_bind (rm' _) (fun z _ => run_pure _) (fun _ mm hi => hi)
      · exact run_bind (rm' _) (fun z _ => run_pure _) (fun _ mm hi => hi)
    | left =>
      refine run_bind (run_lift _) (fun _ _ => ?_) (fun _ mm hi => hi)
      refine run_bind (rm' _) (fun z _ => ?_) (fun _ mm hi => hi)
      exact run_step (dead_tri (fun b => tri_touch .rest (by simp) .write hm)) (fun _ => run_pure _)
  · obtain ⟨rm2, rose2, id⟩ := x
    cases id with
    | error e => exact run_weaken (run_lift _) (fun _ h => h) hb2
    | ok id =>
      simp only
      have hrest : Tri (Dead (m :: m1 :: ts) ptr K) (methodMut w false .rest m (.ok () : Res Unit))
          (fun _ mm => Dead (m :: m1 :: ts) ptr K mm) (fun _ => False) := by
        intro mm hi
        obtain ⟨m', a1, a2⟩ := run_method w false .rest (.ok () : Res Unit) hm mm hi
        exact ⟨_, m', a1, fun _ _ => a2, fun hr => absurd rfl (hr _)⟩
      refine run_step hrest (fun _ => ?_)
      cases Depth.tryFrom l.len with
      | none => exact run_weaken (run_lift _) (fun _ h => h) hb2
      | some d =>
        refine run_step (dead_tri (fun b => tri_touch .rest (by simp) .read hm)) (fun _ => ?_)
        refine run_step (dead_tri (fun b => tri_touch .rest (by simp) .write hm)) (fun _ => ?_)
        refine run_bind (run_method w false .smwr _ hm) (fun sw _ => ?_) (fun _ mm hi => hb2 mm hi)
        exact run_weaken (run_pure _) (fun _ h => h) hb2

/-! ## Following the pointer -/

/-- References made from the pointer of `o` may be used, whatever else is made of the memory. -/
def Follow (t0 : Nat) (ptr : Int) (b : Bool) (o : Boxed) : Prop :=
  ∀ (c : Nat) (wr : Bool) (held : Place → Option Nat) (m : Mem), InvH t0 ptr b wr held c m → held .rm = none →
    ∃ m', (∀ {β : Type} (f : M β),
        (reborrow [.rm] o.ptr .frozen none >>= fun r => touch [.rm] r .read >>= fun _ => f) m = f m') ∧
      m'.calls = m.calls ∧ InvH t0 ptr b wr held c m'

/-- One reference made from a pointer and used. -/
theorem follow_of {t0 : Nat} (o : Boxed) (hf : ∀ (n : Nat) (calls : List Nat) (s : Tree),
      Shape t0 n calls none s → PtrAt t0 ptr b none s → PtrIs t0 o.ptr true s) : Follow t0 ptr b o := by
  intro c wr held m h hr
  have h1 := h.places .rm
  have h2 := h.pointer
  rw [hr] at h1 h2
  obtain ⟨s1, s2, a1, a2, a3, a4⟩ := h1.follow (ptr := ptr.toNat) (b := b) (hf _ _ _ h1.shape h2) h.rootLt
  refine ⟨⟨fun r => if r = .rm then s2 else m.trees r, m.next + 1, m.calls⟩, ?_, rfl, ⟨?_, ?_, ?_, ?_⟩⟩
  · intro β f
    have e1 : reborrow [.rm] o.ptr .frozen none m
        = some (.ok m.next, ⟨fun r => if r = .rm then s1 else m.trees r, m.next + 1, m.calls⟩) := by
      unfold reborrow
      simp only [onPlaces, a1, Option.map]
    have e2 : touch [.rm] m.next .read ⟨fun r => if r = .rm then s1 else m.trees r, m.next + 1, m.calls⟩
        = some (.ok (), ⟨fun r => if r = .rm then s2 else m.trees r, m.next + 1, m.calls⟩) := by
      unfold touch
      simp only [onPlaces, if_true, a2, Option.map]
      congr 2
      congr 1
      funext r
      by_cases hq : r = .rm <;> simp [hq]
    simp only [bind, M.bind, e1, e2]
  · intro q
    show Held t0 (m.next + 1) m.calls c (held q) wr (if q = .rm then s2 else m.trees q)
    by_cases hq : q = .rm
    · subst hq
      rw [hr, if_pos rfl]; exact a3
    · rw [if_neg hq]
      have := h.places q
      exact ⟨this.shape.mono (by omega) (fun d hd => .inl hd), this.held⟩
  · show PtrAt t0 ptr b (held .rm) (if Place.rm = .rm then s2 else m.trees .rm)
    rw [hr, if_pos rfl]; exact fun h0 => a4 (h2 h0)
  · have := h.lt; show ptr < ((m.next + 1 : Nat) : Int); omega
  · have := h.rootLt; show t0 < m.next + 1; omega

/-- A shared pointer that may be read through. -/
theorem follow_eq {t0 : Nat} (o : Boxed) : Follow t0 o.ptr true o := by
  refine follow_of o (fun n calls s _ h2 => ?_)
  exact (show PtrOk t0 o.ptr true none s from h2 (by omega)).isPtr

/-- The root. -/
theorem follow_root (o : Boxed) : Follow o.ptr ptr b o := by
  refine follow_of o (fun n calls s h _ => ?_)
  obtain ⟨x, hx, h1, h2, _⟩ := h.root
  refine ⟨x, hx, h1, by rw [h2]; simp, by rw [h2]; simp, ?_⟩
  intro y _ hy
  rw [h2] at hy
  exact .inl (by simpa using hy)

theorem anyMinLength_run {t0 c : Nat} {wr : Bool} {held : Place → Option Nat} (o : Boxed) (hf : Follow t0 ptr b o)
    (hr : held .rm = none) :
    ∀ (ids : List Nat) (m : Mem), InvH t0 ptr b wr held c m →
    ∃ m', anyMinLength o ids m = some (SmallWriteBuild.anyMinLength o.ng.rm ids, m') ∧
      m'.calls = m.calls ∧ InvH t0 ptr b wr held c m' := by
  intro ids
  induction ids with
  | nil =>
    intro m h
    exact ⟨m, rfl, rfl, h⟩
  | cons id ids ih =>
    intro m h
    obtain ⟨m1, h1, h2, h3⟩ := hf c wr held m h hr
    have e : anyMinLength o (id :: ids) m = (lift (o.ng.rm.getReport id) >>= fun x =>
        if x.minLength > 0 then pure true else anyMinLength o ids) m1 := h1 _
    rw [e]
    unfold SmallWriteBuild.anyMinLength
    show ∃ m', M.bind (lift (o.ng.rm.getReport id)) _ m1 = some (Outcome.bind (o.ng.rm.getReport id) _, m') ∧ _
    unfold M.bind lift
    cases o.ng.rm.getReport (ε := CompileError) id with
    | ok x =>
      simp only [Outcome.bind]
      by_cases hx : x.minLength > 0
      · rw [if_pos hx, if_pos hx]
        exact ⟨m1, rfl, h2, h3⟩
      · rw [if_neg hx, if_neg hx]
        obtain ⟨m', i1, i2, i3⟩ := ih m1 h3
        exact ⟨m', i1, by rw [i2, h2], i3⟩
    | err e => exact ⟨m1, rfl, h2, h3⟩
    | panic e => exact ⟨m1, rfl, h2, h3⟩
    | timeout => exact ⟨m1, rfl, h2, h3⟩

theorem anyMinLength_ub {t0 c : Nat} {wr : Bool} {held : Place → Option Nat} (o : Boxed) (hr : held .rm = none)
    (ids : List Nat) (hne : ids ≠ []) (m : Mem) (h : InvH t0 o.ptr false wr held c m) :
    anyMinLength o ids m = none := by
  have h1 := h.places .rm
  have h2 : PtrOk t0 o.ptr false (held .rm) (m.trees .rm) := h.pointer (by omega)
  rw [hr] at h1 h2
  cases ids with
  | nil => exact absurd rfl hne
  | cons id ids =>
    show M.bind (reborrow [.rm] o.ptr .frozen none) _ m = none
    unfold M.bind reborrow
    simp only [onPlaces, follow_dead h2 h1.shape, Option.map]

/-- The body of the small-write `add_expression`. -/
def swBody (o : Boxed) (g : NgHolder) (expr : ExpressionInfo) (u : Nat) : M Boxed :=
  if o.ng.smwr.poisoned then return o
  else if expr.som ≠ .none then poison u o
  else if g.isVacuous then poison u o
  else do
    let b ← anyMinLength o g.allReports
    if b then poison u o else lift (.panic "not implemented")

/-- The start of the small-write `add_expression`: the builder is borrowed. -/
theorem sw_start {t0 : Nat} (m : Mem) (h : InvH t0 ptr b true (fun _ => none) 0 m) :
    ∃ m1, InvH t0 ptr b true (fun q => if q ∈ [Place.smwr] then some (m.next + 1) else none) m.next m1 ∧
      m.next ∈ m1.calls ∧ ∀ o g e, (reborrow [.smwr] t0 .reserved (some m.next) >>= fun u => touch [.smwr] u .read >>= fun _ =>
        swBody o g e u) { m with next := m.next + 1, calls := m.next :: m.calls } = swBody o g e (m.next + 1) m1 := by
  have s1 := h.start true
  obtain ⟨m1, a1, a2, a3, a4⟩ := s1.borrow [.smwr] (by simp) (by simp) (Nat.lt_succ_self _)
  obtain ⟨m2, b1, b2, b3, b4⟩ := a2.touchHeld (m.next + 1) [.smwr] (by simp) .read (by simp) (by simp)
  refine ⟨m2, by simpa using b2, by rw [b4, a3]; simp, fun o g e => ?_⟩
  simp only [if_true] at a1
  simp only [bind, M.bind, a1, b1]

/-- The small-write `add_expression` is defined if the pointer may be read through or is not read through. -/
theorem run_swAddExpression (o : Boxed) (g : NgHolder) (e : ExpressionInfo) (ht : o.box ∈ ts)
    (hok : Follow o.box ptr b o ∨ o.ng.smwr.poisoned = true ∨ e.som ≠ .none ∨ g.isVacuous = true ∨ g.allReports = []) :
    Run (Inv ts ptr b) (swAddExpression o g e)
      (do let sw ← o.ng.smwr.addExpression o.ng.rm g e; return { o with ng := { o.ng with smwr := sw } })
      (Inv ts ptr b) := by
  rintro m ⟨t0, hts, h⟩
  obtain ⟨m1, k1, k2, k3⟩ := sw_start m h
  generalize hheld : (fun q => if q ∈ [Place.smwr] then some (m.next + 1) else none) = held at k1
  have hsm : held .smwr = some (m.next + 1) := by rw [← hheld]; rfl
  have hrm : held .rm = none := by rw [← hheld]; rfl
  have hpoison : ∀ m', InvH t0 ptr b true held m.next m' → ∃ m'', poison (m.next + 1) o m'
      = some (.ok { o with ng := { o.ng with smwr := { o.ng.smwr with poisoned := true } } }, m'') ∧
      InvH t0 ptr b true held m.next m'' ∧ m''.calls = m'.calls := by
    intro m' hm'
    obtain ⟨m2, a1, a2, a3, a4⟩ := hm'.touchHeld (m.next + 1) [.smwr] (by simp) .write (by simp) (by simpa using hsm)
    refine ⟨m2, ?_, by simpa using a2, a4⟩
    unfold poison
    simp only [bind, M.bind, a1]
    rfl
  have hbody : ∃ m2, swBody o g e (m.next + 1) m1
      = some ((do let sw ← o.ng.smwr.addExpression o.ng.rm g e; return { o with ng := { o.ng with smwr := sw } }), m2) ∧
      InvH t0 ptr b true held m.next m2 ∧ m2.calls = m1.calls := by
    unfold swBody SmallWriteBuild.addExpression
    by_cases h1 : o.ng.smwr.poisoned = true
    · simp only [if_pos h1]
      exact ⟨_, rfl, k1, rfl⟩
    simp only [if_neg h1]
    by_cases h2 : e.som ≠ .none
    · simp only [if_pos h2]
      exact hpoison m1 k1
    simp only [if_neg h2]
    by_cases h3 : g.isVacuous = true
    · simp only [if_pos h3]
      exact hpoison m1 k1
    simp only [if_neg h3]
    have hids : Follow t0 ptr b o ∨ g.allReports = [] := by
      rcases hok with h | h | h | h | h
      · exact .inl (hts _ ht ▸ h)
      · exact absurd h h1
      · exact absurd h h2
      · exact absurd h h3
      · exact .inr h
    have hany : ∃ m', anyMinLength o g.allReports m1 = some (SmallWriteBuild.anyMinLength o.ng.rm g.allReports, m') ∧
        m'.calls = m1.calls ∧ InvH t0 ptr b true held m.next m' := by
      rcases hids with hb | hn
      · exact anyMinLength_run o hb hrm g.allReports m1 k1
      · rw [hn]
        exact ⟨m1, rfl, rfl, k1⟩
    obtain ⟨m', a1, a2, a3⟩ := hany
    simp only [bind, M.bind, a1]
    cases hx : SmallWriteBuild.anyMinLength (ε := CompileError) o.ng.rm g.allReports with
    | ok x =>
      cases x with
      | true =>
        simp only [if_true]
        obtain ⟨m'', b1, b2, b3⟩ := hpoison m' a3
        exact ⟨m'', b1, b2, by rw [b3, a2]⟩
      | false => exact ⟨_, rfl, a3, a2⟩
    | err x => exact ⟨_, rfl, a3, a2⟩
    | panic x => exact ⟨_, rfl, a3, a2⟩
    | timeout => exact ⟨_, rfl, a3, a2⟩
  obtain ⟨m2, c1, c2, c3⟩ := hbody
  obtain ⟨m3, d1, d2⟩ := inCall_eq (m := m) (t0 := t0) (ptr := ptr)
    (fun c => reborrow [.smwr] t0 .reserved (some c) >>= fun u => touch [.smwr] u .read >>= fun _ => swBody o g e u) _
    (by rw [k3, c1]) c2 (by rw [c3]; exact k2)
  refine ⟨m3, ?_, t0, hts, d2⟩
  rw [← d1, ← hts _ ht]
  rfl

/-- It is undefined if the pointer is dead and read through. -/
theorem ub_swAddExpression (o : Boxed) (g : NgHolder) (e : ExpressionInfo) (ht : o.box ∈ ts)
    (h1 : o.ng.smwr.poisoned = false) (h2 : e.som = .none) (h3 : g.isVacuous = false) (h4 : g.allReports ≠ [])
    (m : Mem) (h : Inv ts o.ptr false m) : swAddExpression o g e m = none := by
  obtain ⟨t0, ht0, h⟩ := h
  obtain ⟨m1, k1, k2, k3⟩ := sw_start m h
  have hbody : swBody o g e (m.next + 1) m1 = none := by
    unfold swBody
    simp only [h1, h2, h3, Bool.false_eq_true, if_false, ne_eq, not_true]
    have := anyMinLength_ub o rfl g.allReports h4 m1 k1
    simp only [bind, M.bind, this]
  show inCall (fun c => reborrow [.smwr] o.box .reserved (some c) >>= fun u => touch [.smwr] u .read >>= fun _ =>
    swBody o g e u) m = none
  unfold inCall
  simp only [ht0 _ ht, k3, hbody]

end triples

end TreeBorrows
end Rescan
