import Verif.Model.Borrows
/-! # Borrow stacks of the code: lemmas for C96 -/
namespace Rescan
namespace Borrows
open M

/-! ## One stack -/

theorem granting_none {t : Nat} {k : Access} : ∀ {s : Stack}, (∀ x ∈ s, x.tag ≠ t) → granting t k s = none := by
  intro s
  induction s with
  | nil => intro _; rfl
  | cons x s ih =>
    intro h
    unfold granting
    rw [ih (fun y hy => h y (by simp [hy]))]
    simp only
    rw [if_neg]
    rintro ⟨h1, _⟩
    exact h x (by simp) h1

theorem granting_mid {t : Nat} {k : Access} (b : Stack) (g : Item) (a : Stack) (hg : g.tag = t)
    (hp : g.perm.grants k = true) (ha : ∀ x ∈ a, x.tag ≠ t) : granting t k (b ++ g :: a) = some (b, g, a) := by
  induction b with
  | nil =>
    show granting t k (g :: a) = _
    unfold granting
    rw [granting_none ha]
    simp only
    rw [if_pos ⟨hg, hp⟩]
  | cons x b ih =>
    show granting t k (x :: (b ++ g :: a)) = _
    unfold granting
    rw [ih]

/-- The shape of a stack: a base, a block of shared read-write items (with the tags `ts` among them), and other items.  The
tags differ and are below `n`; no protecting call is active. -/
structure Shape (ts : List Nat) (n : Nat) (calls : List Nat) (base : Item) (block tail s : Stack) : Prop where
  eq : s = base :: (block ++ tail)
  root : base.perm = .unique
  shared : ∀ x ∈ block, x.perm = .sharedRW ∧ x.protector = none
  has : ∀ t ∈ ts, ∃ x ∈ block, x.tag = t
  other : ∀ x ∈ tail, x.perm ≠ .sharedRW
  nodup : (s.map Item.tag).Nodup
  lt : ∀ x ∈ s, x.tag < n
  prot : ∀ x ∈ s, ∀ c, x.protector = some c → c < n ∧ c ∉ calls

def disable (x : Item) : Item := if x.perm = .unique then { x with perm := .disabled } else x

theorem disable_tag (x : Item) : (disable x).tag = x.tag := by unfold disable; split <;> rfl
theorem disable_protector (x : Item) : (disable x).protector = x.protector := by unfold disable; split <;> rfl
theorem disable_perm (x : Item) (h : x.perm ≠ .unique) : disable x = x := by unfold disable; rw [if_neg h]
theorem disable_sharedRW (x : Item) (h : x.perm ≠ .sharedRW) : (disable x).perm ≠ .sharedRW := by
  unfold disable; split
  · simp
  · exact h

theorem takeWhile_block {block tail : Stack} (h1 : ∀ x ∈ block, x.perm = .sharedRW) (h2 : ∀ x ∈ tail, x.perm ≠ .sharedRW) :
    (block ++ tail).takeWhile (fun x => x.perm == .sharedRW) = block ∧
    (block ++ tail).dropWhile (fun x => x.perm == .sharedRW) = tail := by
  induction block with
  | nil =>
    cases tail with
    | nil => exact ⟨rfl, rfl⟩
    | cons y tail =>
      have := h2 y (by simp)
      simp [this]
  | cons x block ih =>
    have := h1 x (by simp)
    obtain ⟨i1, i2⟩ := ih (fun y hy => h1 y (by simp [hy]))
    simp [this, i1, i2]

variable {ts : List Nat} {n : Nat} {calls : List Nat} {base : Item} {block tail s : Stack}

/-- Where a tag of the block is. -/
theorem Shape.find (h : Shape ts n calls base block tail s) {t : Nat} (ht : t ∈ ts) (k : Access) :
    ∃ b1 g a1, block = b1 ++ g :: a1 ∧ g.perm = .sharedRW ∧
      granting t k s = some (base :: b1, g, a1 ++ tail) := by
  obtain ⟨g, hg, htag⟩ := h.has t ht
  obtain ⟨b1, a1, hb⟩ := List.append_of_mem hg
  refine ⟨b1, g, a1, hb, (h.shared g hg).1, ?_⟩
  have hs : s = (base :: b1) ++ g :: (a1 ++ tail) := by rw [h.eq, hb]; simp
  rw [hs]
  apply granting_mid _ _ _ htag
  · rw [(h.shared g hg).1]; cases k <;> rfl
  · intro x hx hxt
    have hn := h.nodup
    rw [hs, List.map_append, List.map_cons] at hn
    have := (List.nodup_append.1 hn).2.1
    have := (List.nodup_cons.1 this).1
    exact this (List.mem_map.2 ⟨x, hx, by rw [hxt, htag]⟩)

theorem Shape.unprotected (h : Shape ts n calls base block tail s) {x : Item} (hx : x ∈ s) :
    x.isProtected calls = false := by
  unfold Item.isProtected
  cases hp : x.protector with
  | none => rfl
  | some c =>
    have := (h.prot x hx c hp).2
    simp [this]

theorem Shape.write (h : Shape ts n calls base block tail s) {t : Nat} (ht : t ∈ ts) :
    access calls t .write s = some (base :: block) := by
  obtain ⟨b1, g, a1, hb, hg, hgr⟩ := h.find ht .write
  obtain ⟨k1, k2⟩ := takeWhile_block (block := a1) (tail := tail)
    (fun x hx => (h.shared x (by rw [hb]; simp [hx])).1) h.other
  unfold access
  rw [hgr]
  simp only
  rw [if_neg]
  · unfold keptByWrite
    rw [if_pos hg, k1, hb]; rfl
  · unfold poppedByWrite
    rw [if_pos hg, k2]
    simp only [List.any_eq_true, not_exists, not_and]
    intro x hx
    rw [h.unprotected (by rw [h.eq]; simp [hx])]
    simp

theorem Shape.read (h : Shape ts n calls base block tail s) {t : Nat} (ht : t ∈ ts) :
    access calls t .read s = some (base :: (block ++ tail.map disable)) := by
  obtain ⟨b1, g, a1, hb, hg, hgr⟩ := h.find ht .read
  unfold access
  rw [hgr]
  simp only
  rw [if_neg]
  · rw [hb]
    have : a1.map disable = a1 := by
      conv => rhs; rw [← List.map_id a1]
      apply List.map_congr_left
      intro x hx
      exact disable_perm x (by rw [(h.shared x (by rw [hb]; simp [hx])).1]; simp)
    show some (base :: b1 ++ g :: (a1 ++ tail).map disable) = _
    rw [List.map_append, this]
    simp
  · simp only [List.any_eq_true, not_exists, not_and, Bool.and_eq_true]
    intro x hx _
    rw [h.unprotected (by rw [h.eq, hb]; simp at hx; rcases hx with hx | hx <;> simp [hx])]
    simp

/-- A write through the block leaves the block. -/
theorem Shape.afterWrite (h : Shape ts n calls base block tail s) :
    Shape ts n calls base block [] (base :: block) := by
  have hsub : List.Sublist (base :: block) s := by rw [h.eq]; simp
  exact {
    eq := by simp
    root := h.root
    shared := h.shared
    has := h.has
    other := by simp
    nodup := h.nodup.sublist (hsub.map _)
    lt := fun x hx => h.lt x (hsub.subset hx)
    prot := fun x hx => h.prot x (hsub.subset hx) }

theorem Shape.afterRead (h : Shape ts n calls base block tail s) :
    Shape ts n calls base block (tail.map disable) (base :: (block ++ tail.map disable)) := by
  have htag : (base :: (block ++ tail.map disable)).map Item.tag = s.map Item.tag := by
    rw [h.eq]
    simp only [List.map_cons, List.map_append, List.map_map]
    congr 2
    apply List.map_congr_left
    intro x _
    exact disable_tag x
  have hm : ∀ x ∈ base :: (block ++ tail.map disable), ∃ y ∈ s, y.tag = x.tag ∧ y.protector = x.protector := by
    intro x hx
    rw [h.eq]
    simp only [List.mem_cons, List.mem_append, List.mem_map] at hx ⊢
    rcases hx with rfl | hx | ⟨y, hy, rfl⟩
    · exact ⟨x, .inl rfl, rfl, rfl⟩
    · exact ⟨x, .inr (.inl hx), rfl, rfl⟩
    · exact ⟨y, .inr (.inr hy), (disable_tag y).symm, (disable_protector y).symm⟩
  exact {
    eq := rfl
    root := h.root
    shared := h.shared
    has := h.has
    other := by
      intro x hx
      obtain ⟨y, hy, rfl⟩ := List.mem_map.1 hx
      exact disable_sharedRW y (h.other y hy)
    nodup := by rw [htag]; exact h.nodup
    lt := fun x hx => by
      obtain ⟨y, h1, h2, _⟩ := hm x hx
      rw [← h2]; exact h.lt y h1
    prot := fun x hx c hc => by
      obtain ⟨y, h1, _, h2⟩ := hm x hx
      exact h.prot y h1 c (by rw [h2]; exact hc) }

/-- A new item on top. -/
theorem Shape.push (h : Shape ts n calls base block tail s) (x : Item) (hx : x.tag = n) (hp : x.perm ≠ .sharedRW)
    (hc : ∀ c, x.protector = some c → c < n ∧ c ∉ calls) :
    Shape ts (n + 1) calls base block (tail ++ [x]) (s ++ [x]) where
  eq := by rw [h.eq]; simp
  root := h.root
  shared := h.shared
  has := h.has
  other := by
    intro y hy
    rcases List.mem_append.1 hy with hy | hy
    · exact h.other y hy
    · rw [List.mem_singleton.1 hy]; exact hp
  nodup := by
    rw [List.map_append, List.nodup_append]
    refine ⟨h.nodup, by simp, ?_⟩
    intro a ha b hb
    obtain ⟨y, hy, rfl⟩ := List.mem_map.1 ha
    simp at hb
    subst hb
    have := h.lt y hy
    omega
  lt := by
    intro y hy
    rcases List.mem_append.1 hy with hy | hy
    · have := h.lt y hy; omega
    · rw [List.mem_singleton.1 hy]; omega
  prot := by
    intro y hy c hyc
    rcases List.mem_append.1 hy with hy | hy
    · have := h.prot y hy c hyc; exact ⟨by omega, this.2⟩
    · rw [List.mem_singleton.1 hy] at hyc
      have := hc c hyc; exact ⟨by omega, this.2⟩

/-- A new item in the block. -/
theorem Shape.share (h : Shape ts n calls base block tail s) {t : Nat} (ht : t ∈ ts) :
    retag calls t none ⟨n, .sharedRW, none⟩ s = some (base :: (block ++ ⟨n, .sharedRW, none⟩ :: tail)) ∧
    Shape (n :: ts) (n + 1) calls base (block ++ [⟨n, .sharedRW, none⟩]) tail
      (base :: (block ++ ⟨n, .sharedRW, none⟩ :: tail)) := by
  obtain ⟨b1, g, a1, hb, hg, hgr⟩ := h.find ht .write
  obtain ⟨k1, k2⟩ := takeWhile_block (block := a1) (tail := tail)
    (fun x hx => (h.shared x (by rw [hb]; simp [hx])).1) h.other
  constructor
  · unfold retag
    simp only
    rw [hgr]
    simp only [keptByWrite, poppedByWrite]
    rw [if_pos hg, if_pos hg, k1, k2, hb]
    simp
  · have hperm : List.Perm (base :: (block ++ ⟨n, .sharedRW, none⟩ :: tail)) (⟨n, .sharedRW, none⟩ :: s) := by
      rw [h.eq, ← List.cons_append, ← List.cons_append]
      exact List.perm_middle
    exact {
      eq := by simp
      root := h.root
      shared := by
        intro x hx
        rcases List.mem_append.1 hx with hx | hx
        · exact h.shared x hx
        · rw [List.mem_singleton.1 hx]; exact ⟨rfl, rfl⟩
      has := by
        intro t' ht'
        rcases List.mem_cons.1 ht' with rfl | ht'
        · exact ⟨⟨t', .sharedRW, none⟩, by simp, rfl⟩
        · obtain ⟨x, hx, hxt⟩ := h.has t' ht'
          exact ⟨x, by simp [hx], hxt⟩
      other := h.other
      nodup := by
        rw [(hperm.map _).nodup_iff, List.map_cons, List.nodup_cons]
        refine ⟨?_, h.nodup⟩
        intro hm
        obtain ⟨y, hy, hyt⟩ := List.mem_map.1 hm
        have := h.lt y hy
        simp only at hyt
        omega
      lt := by
        intro y hy
        rcases List.mem_cons.1 (hperm.subset hy) with rfl | hy
        · simp
        · have := h.lt y hy; omega
      prot := by
        intro y hy c hc
        rcases List.mem_cons.1 (hperm.subset hy) with rfl | hy
        · cases hc
        · have := h.prot y hy c hc; exact ⟨by omega, this.2⟩ }

/-- A new number and a new call do no harm. -/
theorem Shape.mono (h : Shape ts n calls base block tail s) {ts' : List Nat} (hts : ∀ t ∈ ts', t ∈ ts) {n' : Nat} (hn : n ≤ n')
    {calls' : List Nat} (hc : ∀ c ∈ calls', c ∈ calls ∨ n ≤ c) : Shape ts' n' calls' base block tail s where
  eq := h.eq
  root := h.root
  shared := h.shared
  has := fun t ht => h.has t (hts t ht)
  other := h.other
  nodup := h.nodup
  lt := fun x hx => by have := h.lt x hx; omega
  prot := fun x hx c hp => by
    have := h.prot x hx c hp
    refine ⟨by omega, fun hm => ?_⟩
    rcases hc c hm with hm | hm
    · exact this.2 hm
    · omega

/-- Reading through a shared read-only item that lies above the block. -/
theorem Shape.readTail (h : Shape ts n calls base block tail s) {t : Nat}
    (ht : ∃ x ∈ s, x.tag = t ∧ x.perm = .sharedRO) :
    ∃ tail', access calls t .read s = some (base :: (block ++ tail')) ∧
      Shape ts n calls base block tail' (base :: (block ++ tail')) ∧
      (∃ x ∈ base :: (block ++ tail'), x.tag = t ∧ x.perm = .sharedRO) := by
  obtain ⟨g, hg, htag, hperm⟩ := ht
  obtain ⟨b, a, hs⟩ := List.append_of_mem hg
  have hgr : granting t .read s = some (b, g, a) := by
    rw [hs]
    apply granting_mid _ _ _ htag
    · rw [hperm]; rfl
    · intro x hx hxt
      have hn := h.nodup
      rw [hs, List.map_append, List.map_cons] at hn
      have := (List.nodup_append.1 hn).2.1
      have := (List.nodup_cons.1 this).1
      exact this (List.mem_map.2 ⟨x, hx, by rw [hxt, htag]⟩)
  have hacc : access calls t .read s = some (b ++ g :: a.map disable) := by
    unfold access
    rw [hgr]
    simp only
    rw [if_neg]
    · rfl
    · simp only [List.any_eq_true, not_exists, not_and, Bool.and_eq_true]
      intro x hx _
      rw [h.unprotected (by rw [hs]; simp [hx])]
      simp
  -- the base and the block are not changed by the disabling
  obtain ⟨tail', ht', hmem⟩ : ∃ tail', b ++ g :: a.map disable = base :: (block ++ tail') ∧
      ∀ x ∈ tail', ∃ y ∈ tail, x = y ∨ x = disable y := by
    have e : base :: (block ++ tail) = b ++ g :: a := by rw [← h.eq, hs]
    rcases List.append_eq_append_iff.1 (show (base :: block) ++ tail = b ++ g :: a from e) with
      ⟨c, h1, h2⟩ | ⟨c, h1, h2⟩
    · -- b = base :: block ++ c
      refine ⟨c ++ g :: a.map disable, by rw [h1]; simp, ?_⟩
      intro x hx
      rw [h2]
      simp only [List.mem_append, List.mem_cons, List.mem_map] at hx ⊢
      rcases hx with hx | rfl | ⟨y, hy, rfl⟩
      · exact ⟨x, .inl hx, .inl rfl⟩
      · exact ⟨x, .inr (.inl rfl), .inl rfl⟩
      · exact ⟨y, .inr (.inr hy), .inr rfl⟩
    · -- base :: block = b ++ c
      cases c with
      | nil =>
        refine ⟨g :: a.map disable, by rw [show base :: (block ++ (g :: a.map disable)) = (base :: block) ++ _ from rfl, h1]; simp, ?_⟩
        intro x hx
        rw [← (show g :: a = tail by simpa using h2)]
        simp only [List.mem_cons, List.mem_map] at hx ⊢
        rcases hx with rfl | ⟨y, hy, rfl⟩
        · exact ⟨x, .inl rfl, .inl rfl⟩
        · exact ⟨y, .inr hy, .inr rfl⟩
      | cons c0 c =>
        injection h2 with h2 h3
        subst h2
        -- the item would be in the block or the base
        cases b with
        | nil =>
          injection h1 with h1 h4
          subst h1
          rw [h.root] at hperm
          cases hperm
        | cons b0 b =>
          injection h1 with h1 h4
          have := (h.shared g (by rw [h4]; simp)).1
          rw [hperm] at this
          cases this
  refine ⟨tail', by rw [hacc, ht'], ?_, ⟨g, by rw [← ht']; simp, htag, hperm⟩⟩
  have htags : (base :: (block ++ tail')).map Item.tag = s.map Item.tag := by
    rw [← ht', hs, List.map_append, List.map_append, List.map_cons, List.map_cons, List.map_map]
    congr 2
    apply List.map_congr_left
    intro x _
    exact disable_tag x
  have hm : ∀ x ∈ base :: (block ++ tail'), ∃ y ∈ s, y.tag = x.tag ∧ y.protector = x.protector := by
    intro x hx
    rw [← ht'] at hx
    rw [hs]
    simp only [List.mem_cons, List.mem_append, List.mem_map] at hx ⊢
    rcases hx with hx | rfl | ⟨y, hy, rfl⟩
    · exact ⟨x, .inl hx, rfl, rfl⟩
    · exact ⟨x, .inr (.inl rfl), rfl, rfl⟩
    · exact ⟨y, .inr (.inr hy), (disable_tag y).symm, (disable_protector y).symm⟩
  exact {
    eq := rfl
    root := h.root
    shared := h.shared
    has := h.has
    other := by
      intro x hx
      obtain ⟨y, hy, rfl | rfl⟩ := hmem x hx
      · exact h.other x hy
      · exact disable_sharedRW y (h.other y hy)
    nodup := by rw [htags]; exact h.nodup
    lt := fun x hx => by
      obtain ⟨y, h1, h2, _⟩ := hm x hx
      rw [← h2]; exact h.lt y h1
    prot := fun x hx c hc => by
      obtain ⟨y, h1, _, h2⟩ := hm x hx
      exact h.prot y h1 c (by rw [h2]; exact hc) }

/-! ## Memory -/

/-- The pointer `ptr` may be read through (`b`), or is dead (as −1 is, which is no tag). -/
def PtrIs (ptr : Int) (b : Bool) (s : Stack) : Prop :=
  if b then ∃ x ∈ s, (x.tag : Int) = ptr ∧ x.perm = .sharedRO else ∀ x ∈ s, (x.tag : Int) ≠ ptr

/-- All is well: every place has its shape, with the tags `ts` in every block, and the pointer is as `b` says. -/
structure Inv (ts : List Nat) (ptr : Int) (b : Bool) (m : Mem) : Prop where
  shape : ∀ q, ∃ base block tail, Shape ts m.next m.calls base block tail (m.stacks q)
  pointer : PtrIs ptr b (m.stacks .rm)
  lt : ptr < m.next

theorem Inv.mono {ts ts' : List Nat} {ptr : Int} {b : Bool} {m : Mem} (h : Inv ts ptr b m) (hts : ∀ t ∈ ts', t ∈ ts) :
    Inv ts' ptr b m where
  shape := fun q => by
    obtain ⟨base, block, tail, hs⟩ := h.shape q
    exact ⟨base, block, tail, hs.mono hts (Nat.le_refl _) (fun c hc => .inl hc)⟩
  pointer := h.pointer
  lt := h.lt

/-- After a write the pointer is dead. -/
theorem ptr_write {ptr : Int} {b : Bool} (h : Shape ts n calls base block tail s) (hp : PtrIs ptr b s) :
    PtrIs ptr false (base :: block) := by
  cases b with
  | false =>
    intro x hx
    exact hp x (by rw [h.eq]; simp at hx ⊢; rcases hx with hx | hx <;> simp [hx])
  | true =>
    obtain ⟨g, hg, htag, hperm⟩ := hp
    rw [h.eq] at hg
    rcases List.mem_cons.1 hg with rfl | hg
    · rw [h.root] at hperm; cases hperm
    have hn := h.nodup
    rw [h.eq, ← List.cons_append, List.map_append, List.nodup_append] at hn
    rcases List.mem_append.1 hg with hg | hg
    · have := (h.shared g hg).1
      rw [hperm] at this; cases this
    · intro x hx hxt
      exact hn.2.2 _ (List.mem_map_of_mem hx) _ (List.mem_map_of_mem hg) (by omega)

theorem ptr_read {ptr : Int} {b : Bool} (h : Shape ts n calls base block tail s) (hp : PtrIs ptr b s) :
    PtrIs ptr b (base :: (block ++ tail.map disable)) := by
  cases b with
  | false =>
    intro x hx
    simp only [List.mem_cons, List.mem_append, List.mem_map] at hx
    rcases hx with rfl | hx | ⟨y, hy, rfl⟩
    · exact hp x (by rw [h.eq]; simp)
    · exact hp x (by rw [h.eq]; simp [hx])
    · rw [disable_tag]; exact hp y (by rw [h.eq]; simp [hy])
  | true =>
    obtain ⟨g, hg, htag, hperm⟩ := hp
    rw [h.eq] at hg
    simp only [List.mem_cons, List.mem_append] at hg
    rcases hg with rfl | hg | hg
    · exact ⟨g, by simp, htag, hperm⟩
    · exact ⟨g, by simp [hg], htag, hperm⟩
    · refine ⟨g, ?_, htag, hperm⟩
      simp only [List.mem_cons, List.mem_append, List.mem_map]
      exact .inr (.inr ⟨g, hg, disable_perm g (by rw [hperm]; simp)⟩)

theorem ptr_push {ptr : Int} {b : Bool} {s : Stack} (hp : PtrIs ptr b s) (x : Item) (hx : (x.tag : Int) ≠ ptr) :
    PtrIs ptr b (s ++ [x]) := by
  cases b with
  | false =>
    intro y hy
    rcases List.mem_append.1 hy with hy | hy
    · exact hp y hy
    · rw [List.mem_singleton.1 hy]; exact hx
  | true =>
    obtain ⟨g, hg, h⟩ := hp
    exact ⟨g, by simp [hg], h⟩

theorem onPlaces_all (f : Stack → Option Stack) (st st' : Place → Stack) (h : ∀ q, f (st q) = some (st' q)) :
    onPlaces everything f st = some st' := by
  simp only [everything, onPlaces, h, reduceCtorEq, if_false]
  congr 1
  funext q
  cases q <;> rfl

theorem onPlaces_one (q : Place) (f : Stack → Option Stack) (st : Place → Stack) (s : Stack) (h : f (st q) = some s) :
    onPlaces [q] f st = some (fun r => if r = q then s else st r) := by
  simp only [onPlaces, h]

/-! ## Triples -/

/-- From memory with `P`, `x` is defined; if it returns, `Q` holds, and otherwise `E`. -/
def Tri {α : Type} (P : Mem → Prop) (x : M α) (Q : α → Mem → Prop) (E : Mem → Prop) : Prop :=
  ∀ m, P m → ∃ r m', x m = some (r, m') ∧ (∀ a, r = .ok a → Q a m') ∧ ((∀ a, r ≠ .ok a) → E m')

theorem tri_bind {α β : Type} {P : Mem → Prop} {x : M α} {f : α → M β} {Q : α → Mem → Prop} {R : β → Mem → Prop}
    {E : Mem → Prop} (h1 : Tri P x Q E) (h2 : ∀ a, Tri (Q a) (f a) R E) : Tri P (x >>= f) R E := by
  intro m hm
  obtain ⟨r, m', h3, h4, h5⟩ := h1 m hm
  show ∃ r m', M.bind x f m = some (r, m') ∧ _
  unfold M.bind
  rw [h3]
  cases r with
  | ok a => exact h2 a m' (h4 a rfl)
  | err e => exact ⟨_, _, rfl, (fun a ha => by cases ha), fun _ => h5 (fun a ha => by cases ha)⟩
  | panic e => exact ⟨_, _, rfl, (fun a ha => by cases ha), fun _ => h5 (fun a ha => by cases ha)⟩
  | timeout => exact ⟨_, _, rfl, (fun a ha => by cases ha), fun _ => h5 (fun a ha => by cases ha)⟩

theorem tri_pure {α : Type} {Q : α → Mem → Prop} {E : Mem → Prop} (a : α) : Tri (Q a) (pure a) Q E := by
  intro m hm
  exact ⟨.ok a, m, rfl, fun b hb => by cases hb; exact hm, fun h => absurd rfl (h a)⟩

theorem tri_lift {α : Type} {P : Mem → Prop} {E : Mem → Prop} (x : Res α) (hE : ∀ m, P m → E m) :
    Tri P (lift x) (fun a m => x = .ok a ∧ P m) E := by
  intro m hm
  exact ⟨x, m, rfl, fun a ha => ⟨ha, hm⟩, fun _ => hE m hm⟩

theorem tri_fail {α : Type} {P : Mem → Prop} {Q : α → Mem → Prop} {E : Mem → Prop} (x : Res α) (hx : ∀ a, x ≠ .ok a)
    (hE : ∀ m, P m → E m) : Tri P (lift x) Q E := by
  intro m hm
  exact ⟨x, m, rfl, fun a ha => absurd ha (hx a), fun _ => hE m hm⟩

theorem tri_weaken {α : Type} {P P' : Mem → Prop} {x : M α} {Q Q' : α → Mem → Prop} {E E' : Mem → Prop}
    (h : Tri P x Q E) (hP : ∀ m, P' m → P m) (hQ : ∀ a m, Q a m → Q' a m) (hE : ∀ m, E m → E' m) :
    Tri P' x Q' E' := by
  intro m hm
  obtain ⟨r, m', h1, h2, h3⟩ := h m (hP m hm)
  exact ⟨r, m', h1, fun a ha => hQ a _ (h2 a ha), fun hr => hE _ (h3 hr)⟩

theorem tri_pre {α : Type} {p : Prop} {P : Mem → Prop} {x : M α} {Q : α → Mem → Prop} {E : Mem → Prop}
    (h : p → Tri P x Q E) : Tri (fun m => p ∧ P m) x Q E := fun m hm => h hm.1 m hm.2

variable {ptr : Int} {b : Bool} {E : Mem → Prop} {t : Nat}

/-- `&mut Ng`. -/
theorem tri_mutNg (ht : t ∈ ts) :
    Tri (Inv ts ptr b) (mutNg t) (fun t' => Inv (t' :: ts) ptr b) E := by
  intro m h
  have key : ∀ q, ∃ s, retag m.calls t none ⟨m.next, .sharedRW, none⟩ (m.stacks q) = some s ∧
      (∃ base block tail, Shape (m.next :: ts) (m.next + 1) m.calls base block tail s) ∧
      (PtrIs ptr b (m.stacks q) → PtrIs ptr b s) := by
    intro q
    obtain ⟨base, block, tail, hs⟩ := h.shape q
    obtain ⟨h1, h2⟩ := hs.share ht
    refine ⟨_, h1, ⟨_, _, _, h2⟩, fun hp => ?_⟩
    have hperm : List.Perm (base :: (block ++ ⟨m.next, .sharedRW, none⟩ :: tail))
        (⟨m.next, .sharedRW, none⟩ :: (m.stacks q)) := by
      rw [hs.eq, ← List.cons_append, ← List.cons_append]
      exact List.perm_middle
    cases b with
    | false =>
      intro x hx
      rcases List.mem_cons.1 (hperm.subset hx) with rfl | hx
      · have := h.lt; simp only; omega
      · exact hp x hx
    | true =>
      obtain ⟨g, hg, h3⟩ := hp
      exact ⟨g, hperm.symm.subset (by simp [hg]), h3⟩
  have key' : ∃ st : Place → Stack, ∀ q, retag m.calls t none ⟨m.next, .sharedRW, none⟩ (m.stacks q) = some (st q) ∧
      (∃ base block tail, Shape (m.next :: ts) (m.next + 1) m.calls base block tail (st q)) ∧
      (PtrIs ptr b (m.stacks q) → PtrIs ptr b (st q)) :=
    ⟨fun q => Classical.choose (key q), fun q => Classical.choose_spec (key q)⟩
  obtain ⟨st, hst⟩ := key'
  refine ⟨.ok m.next, { m with stacks := st, next := m.next + 1 }, ?_, ?_, fun hr => absurd rfl (hr _)⟩
  · show (onPlaces everything _ m.stacks).map _ = _
    rw [onPlaces_all _ _ st (fun q => (hst q).1)]
    rfl
  · intro a ha
    cases ha
    exact ⟨fun q => (hst q).2.1, (hst .rm).2.2 h.pointer, by have := h.lt; show ptr < ((m.next + 1 : Nat) : Int); omega⟩

/-- Reading or writing a place other than `rm` through a pointer of the block. -/
theorem tri_touch (q : Place) (hq : q ≠ .rm) (k : Access) (ht : t ∈ ts) :
    Tri (Inv ts ptr b) (touch [q] t k) (fun _ => Inv ts ptr b) E := by
  intro m h
  obtain ⟨base, block, tail, hs⟩ := h.shape q
  have key : ∃ s, access m.calls t k (m.stacks q) = some s ∧
      ∃ base block tail, Shape ts m.next m.calls base block tail s := by
    cases k with
    | read => exact ⟨_, hs.read ht, _, _, _, hs.afterRead⟩
    | write => exact ⟨_, hs.write ht, _, _, _, hs.afterWrite⟩
  obtain ⟨s, h1, h2⟩ := key
  refine ⟨.ok (), { m with stacks := fun r => if r = q then s else m.stacks r }, ?_, ?_, fun hr => absurd rfl (hr _)⟩
  · show (onPlaces [q] _ m.stacks).map _ = _
    rw [onPlaces_one q _ _ s h1]; rfl
  · intro _ _
    refine ⟨fun r => ?_, ?_, h.lt⟩
    · show ∃ base block tail, Shape ts m.next m.calls base block tail (if r = q then s else m.stacks r)
      by_cases hr : r = q
      · rw [if_pos hr]; exact h2
      · rw [if_neg hr]; exact h.shape r
    · show PtrIs ptr b (if _ then _ else _)
      rw [if_neg (Ne.symm hq)]; exact h.pointer

/-- Reading everything. -/
theorem tri_readAll (ht : t ∈ ts) :
    Tri (Inv ts ptr b) (touch everything t .read) (fun _ => Inv ts ptr b) E := by
  intro m h
  have key : ∃ st : Place → Stack, ∀ q, access m.calls t .read (m.stacks q) = some (st q) ∧
      (∃ base block tail, Shape ts m.next m.calls base block tail (st q)) ∧
      (PtrIs ptr b (m.stacks q) → PtrIs ptr b (st q)) := by
    have : ∀ q, ∃ s, access m.calls t .read (m.stacks q) = some s ∧
        (∃ base block tail, Shape ts m.next m.calls base block tail s) ∧
        (PtrIs ptr b (m.stacks q) → PtrIs ptr b s) := by
      intro q
      obtain ⟨base, block, tail, hs⟩ := h.shape q
      exact ⟨_, hs.read ht, ⟨_, _, _, hs.afterRead⟩, ptr_read hs⟩
    exact ⟨fun q => Classical.choose (this q), fun q => Classical.choose_spec (this q)⟩
  obtain ⟨st, hst⟩ := key
  refine ⟨.ok (), { m with stacks := st }, ?_, ?_, fun hr => absurd rfl (hr _)⟩
  · show (onPlaces everything _ m.stacks).map _ = _
    rw [onPlaces_all _ _ st (fun q => (hst q).1)]; rfl
  · intro _ _
    exact ⟨fun q => (hst q).2.1, (hst .rm).2.2 h.pointer, h.lt⟩

/-- Writing everything. -/
theorem tri_writeAll (ht : t ∈ ts) :
    Tri (Inv ts ptr b) (touch everything t .write) (fun _ => Inv ts ptr false) E := by
  intro m h
  have key : ∃ st : Place → Stack, ∀ q, access m.calls t .write (m.stacks q) = some (st q) ∧
      (∃ base block tail, Shape ts m.next m.calls base block tail (st q)) ∧
      (PtrIs ptr b (m.stacks q) → PtrIs ptr false (st q)) := by
    have : ∀ q, ∃ s, access m.calls t .write (m.stacks q) = some s ∧
        (∃ base block tail, Shape ts m.next m.calls base block tail s) ∧
        (PtrIs ptr b (m.stacks q) → PtrIs ptr false s) := by
      intro q
      obtain ⟨base, block, tail, hs⟩ := h.shape q
      exact ⟨_, hs.write ht, ⟨_, _, _, hs.afterWrite⟩, ptr_write hs⟩
    exact ⟨fun q => Classical.choose (this q), fun q => Classical.choose_spec (this q)⟩
  obtain ⟨st, hst⟩ := key
  refine ⟨.ok (), { m with stacks := st }, ?_, ?_, fun hr => absurd rfl (hr _)⟩
  · show (onPlaces everything _ m.stacks).map _ = _
    rw [onPlaces_all _ _ st (fun q => (hst q).1)]; rfl
  · intro _ _
    exact ⟨fun q => (hst q).2.1, (hst .rm).2.2 h.pointer, h.lt⟩

/-- Using the item on top changes nothing. -/
theorem access_top (calls : List Nat) (s : Stack) (x : Item) (k : Access) (hx : x.perm.grants k = true) :
    access calls x.tag k (s ++ [x]) = some (s ++ [x]) := by
  unfold access
  rw [granting_mid s x [] rfl hx (by simp)]
  cases k
  · simp
  · simp [poppedByWrite, keptByWrite]

/-- A method with `&mut self` on a field. -/
theorem method_eq {α : Type} (q : Place) (x : Res α) (ht : t ∈ ts) (m : Mem) (h : Inv ts ptr b m) :
    ∃ m', methodMut q t x m = some (x, m') ∧ Inv ts ptr (b && q ≠ .rm) m' := by
  obtain ⟨base, block, tail, hs⟩ := h.shape q
  have hs1 : Shape ts (m.next + 1) (m.next :: m.calls) base block tail (m.stacks q) :=
    hs.mono (fun _ h => h) (by omega) (fun c hc => by
      rcases List.mem_cons.1 hc with rfl | hc
      · exact .inr (Nat.le_refl _)
      · exact .inl hc)
  let u : Item := ⟨m.next + 1, .unique, some m.next⟩
  let st : Place → Stack := fun r => if r = q then (base :: block) ++ [u] else m.stacks r
  have hq : st q = (base :: block) ++ [u] := by simp [st]
  have h1 : onPlaces [q] (retag (m.next :: m.calls) t (some .write) u) m.stacks = some st := by
    apply onPlaces_one
    show (access _ t .write (m.stacks q)).map _ = _
    rw [hs1.write ht]; rfl
  have h2 : ∀ k, onPlaces [q] (access (m.next :: m.calls) (m.next + 1) k) st = some st := by
    intro k
    have : (fun r => if r = q then (base :: block) ++ [u] else st r) = st := by
      funext r
      by_cases hr : r = q
      · simp [hr, hq]
      · simp [hr]
    rw [onPlaces_one q _ _ ((base :: block) ++ [u]) (by
      rw [hq]; exact access_top _ _ u k (by cases k <;> rfl)), this]
  refine ⟨⟨st, m.next + 2, (m.next :: m.calls).filter (· ≠ m.next)⟩, ?_, ?_⟩
  · unfold methodMut inCall
    have e1 : reborrow [q] t (some .write) .unique (some m.next)
        { m with next := m.next + 1, calls := m.next :: m.calls }
        = some (.ok (m.next + 1), ⟨st, m.next + 2, m.next :: m.calls⟩) := by
      unfold reborrow
      simp only
      rw [h1]; rfl
    have e2 : ∀ k, touch [q] (m.next + 1) k ⟨st, m.next + 2, m.next :: m.calls⟩
        = some (.ok (), ⟨st, m.next + 2, m.next :: m.calls⟩) := by
      intro k
      unfold touch
      simp only
      rw [h2 k]; rfl
    simp only [bind, M.bind, e1, e2, lift]
  · have hc : ∀ c ∈ (m.next :: m.calls).filter (· ≠ m.next), c ∈ m.calls ∧ c ≠ m.next := by
      intro c hc
      rw [List.mem_filter] at hc
      have h3 : c ≠ m.next := by simpa using hc.2
      rcases List.mem_cons.1 hc.1 with h4 | h4
      · exact absurd h4 h3
      · exact ⟨h4, h3⟩
    refine ⟨fun r => ?_, ?_, by have := h.lt; show ptr < ((m.next + 2 : Nat) : Int); omega⟩
    · show ∃ base block tail, Shape ts (m.next + 2) _ base block tail (st r)
      by_cases hr : r = q
      · subst hr
        rw [hq]
        refine ⟨base, block, [] ++ [u], ?_⟩
        have hs2 : Shape ts (m.next + 1) ((m.next :: m.calls).filter (· ≠ m.next)) base block [] (base :: block) :=
          hs.afterWrite.mono (fun _ h => h) (by omega) (fun c h3 => .inl (hc c h3).1)
        refine hs2.push u rfl (by simp [u]) ?_
        intro c h3
        cases h3
        exact ⟨by omega, fun h4 => (hc _ h4).2 rfl⟩
      · have : st r = m.stacks r := by simp [st, hr]
        rw [this]
        obtain ⟨base, block, tail, hs⟩ := h.shape r
        exact ⟨base, block, tail, hs.mono (fun _ h => h) (by omega) (fun c h3 => .inl (hc c h3).1)⟩
    · show PtrIs ptr _ (st .rm)
      by_cases hr : q = .rm
      · subst hr
        have : (b && decide (Place.rm ≠ Place.rm)) = false := by simp
        rw [this, hq]
        refine ptr_push (ptr_write hs h.pointer) u ?_
        have := h.lt
        show ((m.next + 1 : Nat) : Int) ≠ ptr
        omega
      · have e1 : (b && decide (q ≠ Place.rm)) = b := by simp [hr]
        have e2 : st .rm = m.stacks .rm := by simp [st, Ne.symm hr]
        rw [e1, e2]
        exact h.pointer

theorem tri_method {α : Type} (q : Place) (x : Res α) (ht : t ∈ ts)
    (hE : ∀ m, Inv ts ptr (b && q ≠ .rm) m → E m) :
    Tri (Inv ts ptr b) (methodMut q t x) (fun a m => x = .ok a ∧ Inv ts ptr (b && q ≠ .rm) m) E := by
  intro m h
  obtain ⟨m', h1, h2⟩ := method_eq q x ht m h
  exact ⟨x, m', h1, fun a ha => ⟨ha, h2⟩, fun _ => hE _ h2⟩

/-- Looking at the `Ng`. -/
theorem tri_look (o : Boxed) (ht : o.box ∈ ts) : Tri (Inv ts ptr b) (look o) (fun _ => Inv ts ptr b) E := by
  intro m h
  let x : Item := ⟨m.next + 1, .sharedRO, some m.next⟩
  have key : ∃ st : Place → Stack, ∀ q, access (m.next :: m.calls) o.box .read (m.stacks q) = some (st q) ∧
      (∃ base block tail, Shape ts m.next m.calls base block tail (st q)) ∧
      (PtrIs ptr b (m.stacks q) → PtrIs ptr b (st q)) := by
    have : ∀ q, ∃ s, access (m.next :: m.calls) o.box .read (m.stacks q) = some s ∧
        (∃ base block tail, Shape ts m.next m.calls base block tail s) ∧
        (PtrIs ptr b (m.stacks q) → PtrIs ptr b s) := by
      intro q
      obtain ⟨base, block, tail, hs⟩ := h.shape q
      have hs1 : Shape ts (m.next + 1) (m.next :: m.calls) base block tail (m.stacks q) :=
        hs.mono (fun _ h => h) (by omega) (fun c hc => by
          rcases List.mem_cons.1 hc with rfl | hc
          · exact .inr (Nat.le_refl _)
          · exact .inl hc)
      exact ⟨_, hs1.read ht, ⟨_, _, _, hs.afterRead⟩, ptr_read hs⟩
    exact ⟨fun q => Classical.choose (this q), fun q => Classical.choose_spec (this q)⟩
  obtain ⟨st, hst⟩ := key
  have h1 : onPlaces everything (retag (m.next :: m.calls) o.box (some .read) x) m.stacks
      = some (fun q => st q ++ [x]) := by
    apply onPlaces_all
    intro q
    show (access _ _ _ (m.stacks q)).map _ = _
    rw [(hst q).1]; rfl
  have h2 : onPlaces everything (access (m.next :: m.calls) (m.next + 1) .read) (fun q => st q ++ [x])
      = some (fun q => st q ++ [x]) := by
    apply onPlaces_all
    intro q
    exact access_top _ _ x .read rfl
  have hc : ∀ c ∈ (m.next :: m.calls).filter (· ≠ m.next), c ∈ m.calls ∧ c ≠ m.next := by
    intro c hc
    rw [List.mem_filter] at hc
    have h3 : c ≠ m.next := by simpa using hc.2
    rcases List.mem_cons.1 hc.1 with h4 | h4
    · exact absurd h4 h3
    · exact ⟨h4, h3⟩
  refine ⟨.ok (), ⟨fun q => st q ++ [x], m.next + 2, (m.next :: m.calls).filter (· ≠ m.next)⟩, ?_, ?_,
    fun hr => absurd rfl (hr _)⟩
  · unfold look inCall
    have e1 : reborrow everything o.box (some .read) .sharedRO (some m.next)
        { m with next := m.next + 1, calls := m.next :: m.calls }
        = some (.ok (m.next + 1), ⟨fun q => st q ++ [x], m.next + 2, m.next :: m.calls⟩) := by
      unfold reborrow
      simp only
      rw [h1]; rfl
    have e2 : touch everything (m.next + 1) .read ⟨fun q => st q ++ [x], m.next + 2, m.next :: m.calls⟩
        = some (.ok (), ⟨fun q => st q ++ [x], m.next + 2, m.next :: m.calls⟩) := by
      unfold touch
      simp only
      rw [h2]; rfl
    simp only [bind, M.bind, e1, e2]
  · intro _ _
    refine ⟨fun q => ?_, ?_, by have := h.lt; show ptr < ((m.next + 2 : Nat) : Int); omega⟩
    · obtain ⟨base, block, tail, hs⟩ := (hst q).2.1
      have hs2 : Shape ts (m.next + 1) ((m.next :: m.calls).filter (· ≠ m.next)) base block tail (st q) :=
        hs.mono (fun _ h => h) (by omega) (fun c h3 => .inl (hc c h3).1)
      refine ⟨base, block, tail ++ [x], hs2.push x rfl (by simp [x]) ?_⟩
      intro c h3
      cases h3
      exact ⟨by omega, fun h4 => (hc _ h4).2 rfl⟩
    · refine ptr_push ((hst .rm).2.2 h.pointer) x ?_
      have := h.lt
      show ((m.next + 1 : Nat) : Int) ≠ ptr
      omega

/-- Dropping. -/
theorem tri_drop (o : Boxed) (ht : o.box ∈ ts) : Tri (Inv ts ptr b) (dropNg o) (fun _ => Inv ts ptr false) E := by
  unfold dropNg
  refine tri_bind (tri_mutNg ht) (fun m => ?_)
  refine tri_bind (tri_readAll (by simp)) (fun _ => ?_)
  refine tri_bind (tri_writeAll (by simp)) (fun _ => ?_)
  exact tri_weaken (tri_writeAll (by simp [ht])) (fun _ h => h)
    (fun _ _ h => h.mono (by simp +contextual)) (fun _ h => h)

theorem tri_addGraph (o : Boxed) (expr : ExpressionInfo) (g : NgHolder) (ht : o.box ∈ ts) :
    Tri (Inv ts ptr b) (addGraph o expr g)
      (fun o' m => o' = { o with ng := o.ng.addGraph expr g } ∧ Inv ts ptr b m) E := by
  unfold addGraph
  refine tri_bind (tri_mutNg ht) (fun m => ?_)
  refine tri_bind (tri_mutNg (by simp)) (fun m' => ?_)
  split
  · refine tri_bind (tri_touch .rest (by simp) .write (by simp)) (fun _ => ?_)
    exact tri_weaken (tri_pure (Q := fun o' m => o' = _ ∧ Inv ts ptr b m) _)
      (fun _ h => ⟨rfl, h.mono (by simp +contextual)⟩) (fun _ _ h => h) (fun _ h => h)
  · exact tri_weaken (tri_pure (Q := fun o' m => o' = _ ∧ Inv ts ptr b m) _)
      (fun _ h => ⟨rfl, h.mono (by simp +contextual)⟩) (fun _ _ h => h) (fun _ h => h)

/-! ## Runs with a known result -/

/-- From memory with `P`, `x` is defined and gives the result `r`, and then `Q` holds. -/
def Run {α : Type} (P : Mem → Prop) (x : M α) (r : Res α) (Q : Mem → Prop) : Prop :=
  ∀ m, P m → ∃ m', x m = some (r, m') ∧ Q m'

theorem run_bind {α β : Type} {P Q R : Mem → Prop} {x : M α} {r : Res α} {f : α → M β} {s : α → Res β}
    (h1 : Run P x r Q) (h2 : ∀ a, r = .ok a → Run Q (f a) (s a) R) (h3 : (∀ a, r ≠ .ok a) → ∀ m, Q m → R m) :
    Run P (x >>= f) (r >>= s) R := by
  intro m hm
  obtain ⟨m', h4, h5⟩ := h1 m hm
  show ∃ m', M.bind x f m = some (Outcome.bind r s, m') ∧ _
  unfold M.bind
  rw [h4]
  cases r with
  | ok a => exact h2 a rfl m' h5
  | err e => exact ⟨m', rfl, h3 (fun a ha => by cases ha) m' h5⟩
  | panic e => exact ⟨m', rfl, h3 (fun a ha => by cases ha) m' h5⟩
  | timeout => exact ⟨m', rfl, h3 (fun a ha => by cases ha) m' h5⟩

/-- A step that always returns and whose value does not matter to the result. -/
theorem run_step {α β : Type} {P : Mem → Prop} {Q : α → Mem → Prop} {R : Mem → Prop} {x : M α} {f : α → M β} {s : Res β}
    (h1 : Tri P x Q (fun _ => False)) (h2 : ∀ a, Run (Q a) (f a) s R) : Run P (x >>= f) s R := by
  intro m hm
  obtain ⟨r, m', h3, h4, h5⟩ := h1 m hm
  show ∃ m', M.bind x f m = some (s, m') ∧ _
  unfold M.bind
  rw [h3]
  cases r with
  | ok a => exact h2 a m' (h4 a rfl)
  | err e => exact (h5 (fun a ha => by cases ha)).elim
  | panic e => exact (h5 (fun a ha => by cases ha)).elim
  | timeout => exact (h5 (fun a ha => by cases ha)).elim

theorem run_lift {α : Type} {P : Mem → Prop} (x : Res α) : Run P (lift x) x P :=
  fun m hm => ⟨m, rfl, hm⟩

theorem run_pure {α : Type} {P : Mem → Prop} (a : α) : Run P (pure a) (pure a) P :=
  fun m hm => ⟨m, rfl, hm⟩

theorem run_method {α : Type} (q : Place) (x : Res α) (ht : t ∈ ts) :
    Run (Inv ts ptr b) (methodMut q t x) x (Inv ts ptr (b && q ≠ .rm)) :=
  fun m h => method_eq q x ht m h

theorem run_weaken {α : Type} {P P' Q Q' : Mem → Prop} {x : M α} {r : Res α} (h : Run P x r Q)
    (hP : ∀ m, P' m → P m) (hQ : ∀ m, Q m → Q' m) : Run P' x r Q' := by
  intro m hm
  obtain ⟨m', h1, h2⟩ := h m (hP m hm)
  exact ⟨m', h1, hQ m' h2⟩

/-- Does `add_literal` get as far as borrowing the report manager? -/
def reaches (p : Profile) (ng : Ng) (l : Ue2Literal) : Bool :=
  (p = .release || !l.isEmpty) && ng.cc.grey.shortcutLiterals && !mixedSensitivity l.iter

/-- The result of `addLiteral`, in the order of its steps. -/
def addLiteralResult (p : Profile) (o : Boxed) (literal : Ue2Literal) (exprIndex externalReport : Nat)
    (highlander : Bool) (som : SomType) (quiet : Bool) : Res (Boxed × Bool) := do
  rdebugAssert p (!literal.isEmpty) "assertion failed: !literal.is_empty()"
  if !o.ng.cc.grey.shortcutLiterals then return (o, false)
  else if mixedSensitivity literal.iter then return (o, false)
  else
    let rm ← (match o.ng.rm.registerExtReport externalReport ⟨highlander, exprIndex⟩ with
      | (_, .error e) => .err e
      | (rm, .ok ()) => .ok rm : Res ReportManager)
    let x ← (show Res (ReportManager × RoseBuild × Except CompileError Nat) from
      match som with
      | .none => do
        let y ← (show Res (ReportManager × Option Nat) from
          if highlander then do
            let z ← rm.getExhaustibleKey externalReport
            return (z.1, some z.2)
          else return (rm, none))
        let w ← Ng.lift (y.1.getInternalId (makeECallback externalReport 0 y.2 quiet))
        return (w.1, o.ng.rose, w.2)
      | _ => do
        rdebugAssert p (!highlander) "assertion failed: !highlander"
        let w ← Ng.lift (rm.getInternalId (makeSomRelativeCallback externalReport 0 literal.len))
        return (w.1, { o.ng.rose with hasSom := true }, w.2))
    match x.2.2 with
    | .error e => .err e
    | .ok id =>
      let rose := x.2.1.add false false literal [id]
      match Depth.tryFrom literal.len with
      | none => .err (CompileError.new .other "depth overflow")
      | some d =>
        let smwr ← o.ng.smwr.addLiteral literal id
        return ({ o with ng := { o.ng with minWidth := Depth.min o.ng.minWidth d, rm := x.1, rose := rose,
                                           smwr := smwr } }, true)

theorem addLiteralResult_eq (p : Profile) (o : Boxed) (l : Ue2Literal) (i r : Nat) (hl : Bool) (som : SomType) (q : Bool) :
    addLiteralResult p o l i r hl som q
      = (do let x ← o.ng.addLiteral p l i r hl som q; return ({ o with ng := x.1 }, x.2)) := by
  unfold addLiteralResult Ng.addLiteral
  cases rdebugAssert (ε := CompileError) p (!l.isEmpty) "assertion failed: !literal.is_empty()" with
  | err e => rfl
  | panic e => rfl
  | timeout => rfl
  | ok _ =>
    show (if _ then _ else _) = Outcome.bind (if _ then _ else _) _
    split
    · rfl
    show (if _ then _ else _) = Outcome.bind (if _ then _ else _) _
    split
    · rfl
    generalize o.ng.rm.registerExtReport r ⟨hl, i⟩ = reg
    obtain ⟨rm, res⟩ := reg
    cases res with
    | error e => rfl
    | ok _ =>
      have hmid : ∀ (X : Res (ReportManager × RoseBuild × Except CompileError Nat))
          (F : ReportManager × RoseBuild × Except CompileError Nat → Res (Boxed × Bool))
          (G : ReportManager × RoseBuild × Except CompileError Nat → Res (Ng × Bool)),
          (∀ x, F x = (G x).bind (fun x => .ok ({ o with ng := x.1 }, x.2))) →
          X.bind F = (X.bind G).bind (fun x => .ok ({ o with ng := x.1 }, x.2)) := by
        intro X F G h
        cases X with
        | ok a => exact h a
        | err e => rfl
        | panic e => rfl
        | timeout => rfl
      refine hmid _ _ _ ?_
      rintro ⟨rm, rose, id⟩
      cases id with
      | error e => rfl
      | ok id =>
        simp only
        cases Depth.tryFrom l.len with
        | none => rfl
        | some d =>
          show Outcome.bind _ _ = Outcome.bind (Outcome.bind _ _) _
          cases o.ng.smwr.addLiteral (ε := CompileError) l id <;> rfl

theorem run_addLiteral (p : Profile) (o : Boxed) (l : Ue2Literal) (i r : Nat) (hl : Bool) (som : SomType) (q : Bool)
    (ht : o.box ∈ ts) :
    Run (Inv ts ptr b) (addLiteral p o l i r hl som q)
      (do let x ← o.ng.addLiteral p l i r hl som q; return ({ o with ng := x.1 }, x.2))
      (Inv ts ptr (b && !reaches p o.ng l)) := by
  rw [← addLiteralResult_eq]
  unfold addLiteral addLiteralResult
  refine run_step (tri_mutNg ht) (fun m1 => ?_)
  refine run_step (tri_mutNg (by simp)) (fun m => ?_)
  have hm : m ∈ m :: m1 :: ts := by simp
  have hback : ∀ {b' b'' : Bool} (mm : Mem), b' = b'' → Inv (m :: m1 :: ts) ptr b' mm → Inv ts ptr b'' mm :=
    fun mm e h => by subst e; exact h.mono (by simp +contextual)
  have hassert : (∀ a, rdebugAssert (ε := CompileError) p (!l.isEmpty) "assertion failed: !literal.is_empty()" ≠ .ok a) →
      reaches p o.ng l = false := by
    intro h
    unfold reaches
    cases p with
    | release => exact absurd rfl (h ())
    | debug =>
      cases he : l.isEmpty with
      | true => simp
      | false => rw [he] at h; exact absurd rfl (h ())
  have hassert2 : ∀ a, rdebugAssert (ε := CompileError) p (!l.isEmpty) "assertion failed: !literal.is_empty()" = .ok a →
      (p = .release || !l.isEmpty) = true := by
    intro a h
    cases p with
    | release => rfl
    | debug =>
      cases he : l.isEmpty with
      | true => rw [he] at h; cases h
      | false => rfl
  refine run_bind (run_lift _) (fun u hu => ?_) (fun h mm hi => hback mm (by rw [hassert h]; simp) hi)
  refine run_step (tri_touch .rest (by simp) .read hm) (fun _ => ?_)
  by_cases h1 : (!o.ng.cc.grey.shortcutLiterals) = true
  · rw [if_pos h1, if_pos h1]
    refine run_weaken (run_pure _) (fun _ h => h) (fun mm hi => hback mm ?_ hi)
    have : o.ng.cc.grey.shortcutLiterals = false := by simpa using h1
    simp [reaches, this]
  rw [if_neg h1, if_neg h1]
  by_cases h2 : mixedSensitivity l.iter = true
  · rw [if_pos h2, if_pos h2]
    refine run_weaken (run_pure _) (fun _ h => h) (fun mm hi => hback mm ?_ hi)
    simp [reaches, h2]
  rw [if_neg h2, if_neg h2]
  have hreach : reaches p o.ng l = true := by
    have h3 : o.ng.cc.grey.shortcutLiterals = true := by simpa using h1
    have h4 : mixedSensitivity l.iter = false := by simpa using h2
    unfold reaches
    rw [hassert2 u hu, h3, h4]; rfl
  rw [hreach]
  have e0 : (b && !true) = false := by simp
  rw [e0]
  have hfalse : (b && decide (Place.rm ≠ Place.rm)) = false := by simp
  have hb2 : ∀ (mm : Mem), Inv (m :: m1 :: ts) ptr false mm → Inv ts ptr false mm := fun mm h => hback mm rfl h
  have rm' : ∀ {α : Type} (x : Res α), Run (Inv (m :: m1 :: ts) ptr false) (methodMut .rm m x) x
      (Inv (m :: m1 :: ts) ptr false) := fun x => run_method .rm x hm
  refine run_bind (Q := Inv (m :: m1 :: ts) ptr false) (by
    have := run_method (ts := m :: m1 :: ts) (ptr := ptr) (b := b) .rm (match o.ng.rm.registerExtReport r ⟨hl, i⟩ with
      | (_, .error e) => .err e
      | (rm, .ok ()) => .ok rm) hm
    rw [hfalse] at this
    exact this) (fun rm _ => ?_) (fun _ mm hi => hb2 mm hi)
  refine run_bind (Q := Inv (m :: m1 :: ts) ptr false) ?_ (fun x _ => ?_) (fun _ mm hi => hb2 mm hi)
  · cases som with
    | none =>
      refine run_bind (Q := Inv (m :: m1 :: ts) ptr false) ?_ (fun y _ => ?_) (fun _ mm hi => hi)
      · cases hl with
        | false => exact run_pure _
        | true => exact run_bind (rm' _) (fun z _ => run_pure _) (fun _ mm hi => hi)
      · exact run_bind (rm' _) (fun z _ => run_pure _) (fun _ mm hi => hi)
    | left =>
      refine run_bind (run_lift _) (fun _ _ => ?_) (fun _ mm hi => hi)
      refine run_bind (rm' _) (fun z _ => ?_) (fun _ mm hi => hi)
      exact run_step (tri_touch .rest (by simp) .write hm) (fun _ => run_pure _)
  · obtain ⟨rm2, rose2, id⟩ := x
    cases id with
    | error e => exact run_weaken (run_lift _) (fun _ h => h) hb2
    | ok id =>
      simp only
      have hrest : Tri (Inv (m :: m1 :: ts) ptr false) (methodMut .rest m (.ok () : Res Unit))
          (fun _ mm => Inv (m :: m1 :: ts) ptr false mm) (fun _ => False) := by
        intro mm hi
        obtain ⟨m', a1, a2⟩ := method_eq .rest (.ok () : Res Unit) hm mm hi
        exact ⟨_, m', a1, fun _ _ => a2, fun hr => absurd rfl (hr _)⟩
      refine run_step hrest (fun _ => ?_)
      cases Depth.tryFrom l.len with
      | none => exact run_weaken (run_lift _) (fun _ h => h) hb2
      | some d =>
        refine run_step (tri_touch .rest (by simp) .read hm) (fun _ => ?_)
        refine run_step (tri_touch .rest (by simp) .write hm) (fun _ => ?_)
        refine run_bind (run_method .smwr _ hm) (fun sw _ => ?_) (fun _ mm hi => hb2 mm hi)
        exact run_weaken (run_pure _) (fun _ h => h) hb2

/-! ## Following the pointer -/

theorem onPlaces_none (q : Place) (f : Stack → Option Stack) (st : Place → Stack) (h : f (st q) = none) :
    onPlaces [q] f st = none := by
  simp only [onPlaces, h]

/-- References made from the pointer of `o` may be used, whatever else is made of the memory. -/
def Follow (ts : List Nat) (ptr : Int) (b : Bool) (o : Boxed) : Prop :=
  ∀ m : Mem, (∃ base block tail, Shape ts m.next m.calls base block tail (m.stacks .rm)) →
    PtrIs ptr b (m.stacks .rm) → ptr < m.next →
    ∃ m', (∀ {β : Type} (f : M β),
        (reborrow [.rm] o.ptr (some .read) .sharedRO none >>= fun r => touch [.rm] r .read >>= fun _ => f) m = f m') ∧
      m'.calls = m.calls ∧ m'.next = m.next + 1 ∧ (∀ q, q ≠ .rm → m'.stacks q = m.stacks q) ∧
      (∃ base block tail, Shape ts m'.next m'.calls base block tail (m'.stacks .rm)) ∧
      PtrIs ptr b (m'.stacks .rm)

/-- One reference made from a pointer and used. -/
theorem follow_of (o : Boxed) (h : ∀ (m : Mem) base block tail,
      Shape ts m.next m.calls base block tail (m.stacks .rm) → PtrIs ptr b (m.stacks .rm) →
      ∃ tail', access m.calls o.ptr .read (m.stacks .rm) = some (base :: (block ++ tail')) ∧
        Shape ts m.next m.calls base block tail' (base :: (block ++ tail')) ∧ PtrIs ptr b (base :: (block ++ tail'))) :
    Follow ts ptr b o := by
  intro m hs hp hlt
  obtain ⟨base, block, tail, hs⟩ := hs
  obtain ⟨tail', h1, h2, h3⟩ := h m base block tail hs hp
  let x : Item := ⟨m.next, .sharedRO, none⟩
  let s' : Stack := (base :: (block ++ tail')) ++ [x]
  let st : Place → Stack := fun r => if r = .rm then s' else m.stacks r
  have hst : st .rm = s' := by simp [st]
  have e1 : reborrow [.rm] o.ptr (some .read) .sharedRO none m = some (.ok m.next, ⟨st, m.next + 1, m.calls⟩) := by
    unfold reborrow
    rw [onPlaces_one .rm _ _ s' (by
      show (access _ _ _ _).map _ = _
      rw [h1]; rfl)]
    rfl
  have e2 : touch [.rm] m.next .read ⟨st, m.next + 1, m.calls⟩ = some (.ok (), ⟨st, m.next + 1, m.calls⟩) := by
    unfold touch
    simp only
    rw [onPlaces_one .rm _ _ s' (by rw [hst]; exact access_top _ _ x .read rfl)]
    have : (fun r => if r = Place.rm then s' else st r) = st := by
      funext r
      by_cases hr : r = .rm
      · simp [hr, hst]
      · simp [hr]
    rw [this]; rfl
  refine ⟨⟨st, m.next + 1, m.calls⟩, ?_, rfl, rfl, ?_, ?_, ?_⟩
  · intro β f
    simp only [bind, M.bind, e1, e2]
  · intro q hq
    simp [st, hq]
  · refine ⟨base, block, tail' ++ [x], ?_⟩
    show Shape ts (m.next + 1) m.calls base block _ (st .rm)
    rw [hst]
    exact h2.push x rfl (by simp [x]) (fun c hc => by cases hc)
  · show PtrIs ptr b (st .rm)
    rw [hst]
    exact ptr_push h3 x (by show (m.next : Int) ≠ ptr; omega)

/-- A shared pointer that may be read through. -/
theorem follow_eq (o : Boxed) : Follow ts o.ptr true o := by
  refine follow_of o (fun m base block tail hs hp => ?_)
  obtain ⟨x, hx, h1, h2⟩ := hp
  obtain ⟨tail', h3, h4, y, hy, h5, h6⟩ := hs.readTail (t := o.ptr) ⟨x, hx, by omega, h2⟩
  exact ⟨tail', h3, h4, y, hy, by omega, h6⟩

/-- A pointer in the block of shared read-write items. -/
theorem follow_block (o : Boxed) (ht : o.ptr ∈ ts) : Follow ts ptr b o := by
  refine follow_of o (fun m base block tail hs hp => ?_)
  exact ⟨_, hs.read ht, hs.afterRead, ptr_read hs hp⟩

theorem anyMinLength_run (o : Boxed) (hf : Follow ts ptr b o) : ∀ (ids : List Nat) (m : Mem),
    (∃ base block tail, Shape ts m.next m.calls base block tail (m.stacks .rm)) →
    PtrIs ptr b (m.stacks .rm) → ptr < m.next →
    ∃ m', anyMinLength o ids m = some (SmallWriteBuild.anyMinLength o.ng.rm ids, m') ∧
      m'.calls = m.calls ∧ m.next ≤ m'.next ∧ (∀ q, q ≠ .rm → m'.stacks q = m.stacks q) ∧
      (∃ base block tail, Shape ts m'.next m'.calls base block tail (m'.stacks .rm)) ∧
      PtrIs ptr b (m'.stacks .rm) := by
  intro ids
  induction ids with
  | nil =>
    intro m hs hp hlt
    exact ⟨m, rfl, rfl, Nat.le_refl _, fun _ _ => rfl, hs, hp⟩
  | cons id ids ih =>
    intro m hs hp hlt
    obtain ⟨m1, h1, h2, h3, h4, h5, h6⟩ := hf m hs hp hlt
    have e : anyMinLength o (id :: ids) m = (lift (o.ng.rm.getReport id) >>= fun x =>
        if x.minLength > 0 then pure true else anyMinLength o ids) m1 := h1 _
    rw [e]
    unfold SmallWriteBuild.anyMinLength
    show ∃ m', M.bind (lift (o.ng.rm.getReport id)) _ m1 = some (Outcome.bind (o.ng.rm.getReport id) _, m') ∧ _
    unfold M.bind lift
    have hle : m.next ≤ m1.next := by omega
    cases o.ng.rm.getReport (ε := CompileError) id with
    | ok x =>
      simp only [Outcome.bind]
      by_cases hx : x.minLength > 0
      · rw [if_pos hx, if_pos hx]
        exact ⟨m1, rfl, h2, hle, h4, h5, h6⟩
      · rw [if_neg hx, if_neg hx]
        obtain ⟨m', i1, i2, i3, i4, i5, i6⟩ := ih m1 h5 h6 (by omega)
        exact ⟨m', i1, by rw [i2, h2], by omega, fun q hq => by rw [i4 q hq, h4 q hq], i5, i6⟩
    | err e => exact ⟨m1, rfl, h2, hle, h4, h5, h6⟩
    | panic e => exact ⟨m1, rfl, h2, hle, h4, h5, h6⟩
    | timeout => exact ⟨m1, rfl, h2, hle, h4, h5, h6⟩

theorem anyMinLength_ub (o : Boxed) (ids : List Nat) (hne : ids ≠ []) (m : Mem) (hp : PtrIs o.ptr false (m.stacks .rm)) :
    anyMinLength o ids m = none := by
  cases ids with
  | nil => exact absurd rfl hne
  | cons id ids =>
    show M.bind (reborrow [.rm] o.ptr (some .read) .sharedRO none) _ m = none
    unfold M.bind reborrow
    rw [onPlaces_none]
    · rfl
    · show (access _ _ _ _).map _ = none
      unfold access
      rw [granting_none (fun x hx h => hp x hx (by omega))]; rfl

/-- The start of the small-write `add_expression`: the builder is borrowed. -/
theorem sw_start {β : Type} (o : Boxed) (ht : o.box ∈ ts) (m : Mem) (h : Inv ts ptr b m) :
    ∃ (c u : Nat) (m1 : Mem), Inv ts ptr b { m1 with calls := m1.calls.filter (· ≠ c) } ∧
      (∀ q, ∃ base block tail, Shape ts m1.next (m1.calls.filter (· ≠ c)) base block tail (m1.stacks q)) ∧
      (∃ base block tail, Shape ts m1.next m1.calls base block tail (m1.stacks .rm)) ∧
      (∀ m2 : Mem, m2.calls = m1.calls → m2.stacks .smwr = m1.stacks .smwr →
        ∀ k, touch [.smwr] u k m2 = some (.ok (), m2)) ∧
      ∀ f : Nat → M β, (mutNg o.box >>= fun t => inCall fun c =>
          reborrow [.smwr] t (some .write) .unique (some c) >>= fun u => touch [.smwr] u .read >>= fun _ => f u) m
        = (match f u m1 with
          | none => none
          | some (r, m') => some (r, { m' with calls := m'.calls.filter (· ≠ c) })) := by
  obtain ⟨r, m0, h1, h2, _⟩ := tri_mutNg (E := fun _ => False) ht m h
  have hr : ∃ t, r = .ok t := by
    cases r with
    | ok t => exact ⟨t, rfl⟩
    | _ => rename_i h3; exact (h3 (fun a ha => by cases ha)).elim
  obtain ⟨t, rfl⟩ := hr
  have h0 := h2 t rfl
  obtain ⟨base, block, tail, hs⟩ := h0.shape .smwr
  have hs1 : Shape (t :: ts) (m0.next + 1) (m0.next :: m0.calls) base block tail (m0.stacks .smwr) :=
    hs.mono (fun _ h => h) (by omega) (fun c hc => by
      rcases List.mem_cons.1 hc with rfl | hc
      · exact .inr (Nat.le_refl _)
      · exact .inl hc)
  let u : Item := ⟨m0.next + 1, .unique, some m0.next⟩
  let st : Place → Stack := fun r => if r = .smwr then (base :: block) ++ [u] else m0.stacks r
  have hq : st .smwr = (base :: block) ++ [u] := by simp [st]
  have hc : ∀ c ∈ (m0.next :: m0.calls).filter (· ≠ m0.next), c ∈ m0.calls ∧ c ≠ m0.next := by
    intro c hc
    rw [List.mem_filter] at hc
    have h3 : c ≠ m0.next := by simpa using hc.2
    rcases List.mem_cons.1 hc.1 with h4 | h4
    · exact absurd h4 h3
    · exact ⟨h4, h3⟩
  have htouch : ∀ m2 : Mem, m2.calls = m0.next :: m0.calls → m2.stacks .smwr = st .smwr →
        ∀ k, touch [.smwr] (m0.next + 1) k m2 = some (.ok (), m2) := by
    intro m2 _ e2 k
    unfold touch
    rw [onPlaces_one .smwr _ _ (m2.stacks .smwr) (by
      rw [e2, hq]; exact access_top _ _ u k (by cases k <;> rfl))]
    have : (fun r => if r = Place.smwr then m2.stacks .smwr else m2.stacks r) = m2.stacks := by
      funext r
      by_cases hr : r = .smwr
      · simp [hr]
      · simp [hr]
    rw [this]; rfl
  have hshape : ∀ q, ∃ base block tail, Shape ts (m0.next + 2) ((m0.next :: m0.calls).filter (· ≠ m0.next))
      base block tail (st q) := by
    intro q
    by_cases hr : q = .smwr
    · subst hr
      rw [hq]
      refine ⟨base, block, [] ++ [u], ?_⟩
      have hs2 : Shape ts (m0.next + 1) ((m0.next :: m0.calls).filter (· ≠ m0.next)) base block [] (base :: block) :=
        hs.afterWrite.mono (fun _ h => by simp [h]) (by omega) (fun c h3 => .inl (hc c h3).1)
      refine hs2.push u rfl (by simp [u]) ?_
      intro c h3
      cases h3
      exact ⟨by omega, fun h4 => (hc _ h4).2 rfl⟩
    · have : st q = m0.stacks q := by simp [st, hr]
      rw [this]
      obtain ⟨base, block, tail, hs⟩ := h0.shape q
      exact ⟨base, block, tail, hs.mono (fun _ h => by simp [h]) (by omega) (fun c h3 => .inl (hc c h3).1)⟩
  have hrm : st .rm = m0.stacks .rm := by simp [st]
  refine ⟨m0.next, m0.next + 1, ⟨st, m0.next + 2, m0.next :: m0.calls⟩, ⟨hshape, ?_, ?_⟩, hshape, ?_, htouch, ?_⟩
  · show PtrIs ptr b (st .rm)
    rw [hrm]; exact h0.pointer
  · have := h0.lt; show ptr < ((m0.next + 2 : Nat) : Int); omega
  · show ∃ base block tail, Shape ts (m0.next + 2) (m0.next :: m0.calls) base block tail (st .rm)
    rw [hrm]
    obtain ⟨base, block, tail, hs⟩ := h0.shape .rm
    exact ⟨base, block, tail, hs.mono (fun _ h => by simp [h]) (by omega) (fun c hc => by
      rcases List.mem_cons.1 hc with rfl | hc
      · exact .inr (Nat.le_refl _)
      · exact .inl hc)⟩
  · intro f
    have e1 : reborrow [.smwr] t (some .write) .unique (some m0.next)
        { m0 with next := m0.next + 1, calls := m0.next :: m0.calls }
        = some (.ok (m0.next + 1), ⟨st, m0.next + 2, m0.next :: m0.calls⟩) := by
      unfold reborrow
      simp only
      rw [onPlaces_one .smwr _ _ ((base :: block) ++ [u]) (by
        show (access _ t .write (m0.stacks .smwr)).map _ = _
        rw [hs1.write (by simp)]; rfl)]
      rfl
    have e2 := htouch ⟨st, m0.next + 2, m0.next :: m0.calls⟩ rfl rfl .read
    show M.bind (mutNg o.box) _ m = _
    unfold M.bind
    rw [h1]
    unfold inCall
    simp only [bind, M.bind, e1, e2]
    cases f (m0.next + 1) ⟨st, m0.next + 2, m0.next :: m0.calls⟩ <;> rfl

/-- The small-write `add_expression` is defined if the pointer may be read through or is not read through. -/
theorem run_swAddExpression (o : Boxed) (g : NgHolder) (e : ExpressionInfo) (ht : o.box ∈ ts)
    (hok : Follow ts ptr b o ∨ o.ng.smwr.poisoned = true ∨ e.som ≠ .none ∨ g.isVacuous = true ∨ g.allReports = []) :
    Run (Inv ts ptr b) (swAddExpression o g e)
      (do let sw ← o.ng.smwr.addExpression o.ng.rm g e; return { o with ng := { o.ng with smwr := sw } })
      (Inv ts ptr b) := by
  intro m h
  obtain ⟨c, u, m1, k1, k2, k3, k4, k5⟩ := sw_start (β := Boxed) o ht m h
  unfold swAddExpression
  rw [k5]
  unfold SmallWriteBuild.addExpression
  have hpoison : poison u o m1
      = some (.ok { o with ng := { o.ng with smwr := { o.ng.smwr with poisoned := true } } }, m1) := by
    unfold poison
    simp only [bind, M.bind, k4 m1 rfl rfl .write]
    rfl
  by_cases h1 : o.ng.smwr.poisoned = true
  · simp only [if_pos h1]
    exact ⟨_, rfl, k1⟩
  simp only [if_neg h1]
  by_cases h2 : e.som ≠ .none
  · simp only [if_pos h2, hpoison]
    exact ⟨_, rfl, k1⟩
  simp only [if_neg h2]
  by_cases h3 : g.isVacuous = true
  · simp only [if_pos h3, hpoison]
    exact ⟨_, rfl, k1⟩
  simp only [if_neg h3]
  have hids : Follow ts ptr b o ∨ g.allReports = [] := by
    rcases hok with h | h | h | h | h
    · exact .inl h
    · exact absurd h h1
    · exact absurd h h2
    · exact absurd h h3
    · exact .inr h
  -- the reports
  have hany : ∃ m', anyMinLength o g.allReports m1 = some (SmallWriteBuild.anyMinLength o.ng.rm g.allReports, m') ∧
      m'.calls = m1.calls ∧ m'.stacks .smwr = m1.stacks .smwr ∧
      Inv ts ptr b { m' with calls := m'.calls.filter (· ≠ c) } := by
    rcases hids with hb | hn
    · obtain ⟨m', a1, a2, a3, a4, a5, a6⟩ := anyMinLength_run o hb g.allReports m1 k3 k1.pointer k1.lt
      refine ⟨m', a1, a2, a4 .smwr (by simp), ?_, a6, ?_⟩
      · intro q
        show ∃ base block tail, Shape ts m'.next (m'.calls.filter (· ≠ c)) base block tail (m'.stacks q)
        by_cases hq : q = .rm
        · subst hq
          obtain ⟨base, block, tail, hs⟩ := a5
          exact ⟨base, block, tail, hs.mono (fun _ h => h) (Nat.le_refl _)
            (fun c hc => .inl (List.mem_filter.1 hc).1)⟩
        · rw [a4 q hq, a2]
          obtain ⟨base, block, tail, hs⟩ := k2 q
          exact ⟨base, block, tail, hs.mono (fun _ h => h) a3 (fun c hc => .inl hc)⟩
      · have := k1.lt
        show ptr < m'.next
        have : ptr < m1.next := this
        omega
    · rw [hn]
      exact ⟨m1, rfl, rfl, rfl, k1⟩
  obtain ⟨m', a1, a2, a3, a4⟩ := hany
  have hpoison' : poison u o m'
      = some (.ok { o with ng := { o.ng with smwr := { o.ng.smwr with poisoned := true } } }, m') := by
    unfold poison
    simp only [bind, M.bind, k4 m' a2 a3 .write]
    rfl
  simp only [bind, M.bind, a1]
  cases hx : SmallWriteBuild.anyMinLength (ε := CompileError) o.ng.rm g.allReports with
  | ok x =>
    cases x with
    | true =>
      simp only [if_true, hpoison']
      exact ⟨_, rfl, a4⟩
    | false => exact ⟨_, rfl, a4⟩
  | err x => exact ⟨_, rfl, a4⟩
  | panic x => exact ⟨_, rfl, a4⟩
  | timeout => exact ⟨_, rfl, a4⟩

/-- It is undefined if the pointer is dead and read through. -/
theorem ub_swAddExpression (o : Boxed) (g : NgHolder) (e : ExpressionInfo) (ht : o.box ∈ ts)
    (h1 : o.ng.smwr.poisoned = false) (h2 : e.som = .none) (h3 : g.isVacuous = false) (h4 : g.allReports ≠ [])
    (m : Mem) (h : Inv ts o.ptr false m) : swAddExpression o g e m = none := by
  obtain ⟨c, u, m1, k1, k2, k3, k4, k5⟩ := sw_start (β := Boxed) o ht m h
  unfold swAddExpression
  rw [k5]
  simp only [h1, h2, h3, Bool.false_eq_true, if_false, ne_eq, not_true]
  have := anyMinLength_ub o g.allReports h4 m1 k1.pointer
  simp only [bind, M.bind, this]

end Borrows
end Rescan
