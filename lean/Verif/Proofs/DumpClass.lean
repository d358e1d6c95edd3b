import Verif.Spec.DumpClass
import Verif.Props.DumpCharClass
/-! # Lemmas about descriptions of classes with several ranges -/
namespace Rescan.Dump
open Spec

/-! ## Runs -/

/-- The runs of a list of bytes that continues the run `s..=l`. -/
def runsFrom (s l : U8) : List U8 → List (U8 × U8)
  | [] => [(s, l)]
  | c :: cs => if c ≠ l + 1#8 then (s, l) :: runsFrom c c cs else runsFrom s c cs

theorem runsFrom_ne_nil (cs : List U8) : ∀ s l : U8, runsFrom s l cs ≠ [] := by
  induction cs with
  | nil => intro s l h; cases h
  | cons c cs ih =>
    intro s l
    unfold runsFrom
    by_cases h : c ≠ l + 1#8
    · rw [if_pos h]; intro h'; cases h'
    · rw [if_neg h]; exact ih _ _

/-- Membership in the set a run and the bytes after it stand for. -/
def InRuns (s l : U8) (cs : List U8) (n : Nat) : Prop :=
  (s.toNat ≤ n ∧ n ≤ l.toNat) ∨ ∃ c ∈ cs, c.toNat = n

/-- Maximal runs of a set of numbers. -/
def RunN (T : Nat → Prop) (a b : Nat) : Prop :=
  a ≤ b ∧ (∀ n, a ≤ n → n ≤ b → T n) ∧ (∀ n, n + 1 = a → ¬ T n) ∧ ¬ T (b + 1)

theorem RunN.congr {T T' : Nat → Prop} (h : ∀ n, T n ↔ T' n) (a b : Nat) : RunN T a b ↔ RunN T' a b := by
  have : T = T' := funext fun n => propext (h n)
  rw [this]

theorem mem_runsFrom : ∀ (cs : List U8) (s l : U8), s ≤ l → (l :: cs).Pairwise (· < ·) → ∀ a b : U8,
    (a, b) ∈ runsFrom s l cs ↔ RunN (InRuns s l cs) a.toNat b.toNat
  | [], s, l, hsl, _, a, b => by
    rw [BitVec.le_def] at hsl
    unfold runsFrom RunN InRuns
    simp only [List.mem_singleton, Prod.mk.injEq, List.not_mem_nil, false_and, exists_false, or_false]
    rw [← BitVec.toNat_inj, ← BitVec.toNat_inj]
    constructor
    · rintro ⟨h1, h2⟩
      rw [h1, h2]
      exact ⟨hsl, fun n h3 h4 => ⟨h3, h4⟩, fun n h3 h4 => by omega, fun h3 => by omega⟩
    · rintro ⟨h1, h2, h3, h4⟩
      have ha := h2 a.toNat (Nat.le_refl _) h1
      have hb := h2 b.toNat h1 (Nat.le_refl _)
      refine ⟨?_, ?_⟩
      · by_cases h5 : a.toNat = s.toNat
        · exact h5
        · exact absurd ⟨by omega, by omega⟩ (h3 (a.toNat - 1) (by omega))
      · by_cases h5 : b.toNat = l.toNat
        · exact h5
        · exact absurd ⟨by omega, by omega⟩ h4
  | c :: cs, s, l, hsl, hp, a, b => by
    have hp' : (c :: cs).Pairwise (· < ·) := (List.pairwise_cons.1 hp).2
    have hlc : l < c := (List.pairwise_cons.1 hp).1 c (by simp)
    have hcs : ∀ x ∈ cs, c < x := (List.pairwise_cons.1 hp').1
    have hlc' := hlc
    rw [BitVec.lt_def] at hlc'
    rw [BitVec.le_def] at hsl
    have hc := c.isLt
    have hsucc : (l + 1#8).toNat = l.toNat + 1 := succ_toNat l (by omega)
    unfold runsFrom
    by_cases h : c ≠ l + 1#8
    · rw [if_pos h]
      have h' : l.toNat + 1 < c.toNat := by
        rw [Ne, ← BitVec.toNat_inj, hsucc] at h; omega
      rw [List.mem_cons, mem_runsFrom cs c c (BitVec.le_refl c) hp' a b, Prod.mk.injEq,
        ← BitVec.toNat_inj, ← BitVec.toNat_inj]
      have hT' : ∀ n, InRuns c c cs n → c.toNat ≤ n := by
        rintro n (h1 | ⟨x, hx, rfl⟩)
        · exact h1.1
        · have := hcs x hx; rw [BitVec.lt_def] at this; omega
      have hT : ∀ n, InRuns s l (c :: cs) n ↔ (s.toNat ≤ n ∧ n ≤ l.toNat) ∨ InRuns c c cs n := by
        intro n
        unfold InRuns
        constructor
        · rintro (h1 | ⟨x, hx, rfl⟩)
          · exact .inl h1
          · rcases List.mem_cons.1 hx with rfl | hx
            · exact .inr (.inl ⟨Nat.le_refl _, Nat.le_refl _⟩)
            · exact .inr (.inr ⟨x, hx, rfl⟩)
        · rintro (h1 | h1 | ⟨x, hx, rfl⟩)
          · exact .inl h1
          · exact .inr ⟨c, by simp, by omega⟩
          · exact .inr ⟨x, by simp [hx], rfl⟩
      rw [RunN.congr hT]
      constructor
      · rintro (⟨h1, h2⟩ | ⟨h1, h2, h3, h4⟩)
        · rw [h1, h2]
          refine ⟨hsl, fun n h3 h4 => .inl ⟨h3, h4⟩, ?_, ?_⟩
          · rintro n h3 (h4 | h4)
            · omega
            · have := hT' n h4; omega
          · rintro (h4 | h4)
            · omega
            · have := hT' _ h4; omega
        · have hca := hT' _ (h2 a.toNat (Nat.le_refl _) h1)
          refine ⟨h1, fun n h5 h6 => .inr (h2 n h5 h6), ?_, ?_⟩
          · rintro n h5 (h6 | h6)
            · omega
            · exact h3 n h5 h6
          · rintro (h6 | h6)
            · omega
            · exact h4 h6
      · rintro ⟨h1, h2, h3, h4⟩
        rcases h2 a.toNat (Nat.le_refl _) h1 with ha | ha
        · left
          refine ⟨?_, ?_⟩
          · by_cases h5 : a.toNat = s.toNat
            · exact h5
            · exact absurd (.inl ⟨by omega, by omega⟩) (h3 (a.toNat - 1) (by omega))
          · by_cases h5 : b.toNat ≤ l.toNat
            · by_cases h6 : b.toNat = l.toNat
              · exact h6
              · exact absurd (.inl ⟨by omega, by omega⟩) h4
            · rcases h2 (l.toNat + 1) (by omega) (by omega) with h6 | h6
              · omega
              · have := hT' _ h6; omega
        · right
          have hca := hT' _ ha
          refine ⟨h1, fun n h5 h6 => ?_, fun n h5 h6 => h3 n h5 (.inr h6), fun h6 => h4 (.inr h6)⟩
          rcases h2 n h5 h6 with h7 | h7
          · omega
          · exact h7
    · rw [if_neg h]
      have h' : c.toNat = l.toNat + 1 := by
        have := Decidable.not_not.1 h; rw [this, hsucc]
      rw [mem_runsFrom cs s c (by rw [BitVec.le_def]; omega) hp' a b]
      apply RunN.congr
      intro n
      unfold InRuns
      constructor
      · rintro (h1 | ⟨x, hx, rfl⟩)
        · by_cases h2 : n = c.toNat
          · exact .inr ⟨c, by simp, h2.symm⟩
          · exact .inl ⟨h1.1, by omega⟩
        · exact .inr ⟨x, by simp [hx], rfl⟩
      · rintro (h1 | ⟨x, hx, rfl⟩)
        · exact .inl ⟨h1.1, by omega⟩
        · rcases List.mem_cons.1 hx with rfl | hx
          · exact .inl ⟨by omega, Nat.le_refl _⟩
          · exact .inr ⟨x, hx, rfl⟩

/-- Every run of `runsFrom` starts at `s` or later. -/
theorem runsFrom_ge : ∀ (cs : List U8) (s l : U8), s ≤ l → (l :: cs).Pairwise (· < ·) →
    ∀ r ∈ runsFrom s l cs, s ≤ r.1
  | [], s, l, _, _, r, hr => by
    unfold runsFrom at hr; rw [List.mem_singleton] at hr; subst hr; exact BitVec.le_refl _
  | c :: cs, s, l, hsl, hp, r, hr => by
    have hp' : (c :: cs).Pairwise (· < ·) := (List.pairwise_cons.1 hp).2
    have hlc : l < c := (List.pairwise_cons.1 hp).1 c (by simp)
    rw [BitVec.lt_def] at hlc
    rw [BitVec.le_def] at hsl
    unfold runsFrom at hr
    by_cases h : c ≠ l + 1#8
    · rw [if_pos h, List.mem_cons] at hr
      rcases hr with rfl | hr
      · exact BitVec.le_refl _
      · have := runsFrom_ge cs c c (BitVec.le_refl _) hp' r hr
        rw [BitVec.le_def] at this ⊢; omega
    · rw [if_neg h] at hr
      exact runsFrom_ge cs s c (by rw [BitVec.le_def]; omega) hp' r hr

theorem runsFrom_pairwise : ∀ (cs : List U8) (s l : U8), s ≤ l → (l :: cs).Pairwise (· < ·) →
    (runsFrom s l cs).Pairwise (fun r q => r.2 < q.1)
  | [], _, _, _, _ => by unfold runsFrom; exact List.pairwise_singleton _ _
  | c :: cs, s, l, hsl, hp => by
    have hp' : (c :: cs).Pairwise (· < ·) := (List.pairwise_cons.1 hp).2
    have hlc : l < c := (List.pairwise_cons.1 hp).1 c (by simp)
    rw [BitVec.lt_def] at hlc
    rw [BitVec.le_def] at hsl
    unfold runsFrom
    by_cases h : c ≠ l + 1#8
    · rw [if_pos h, List.pairwise_cons]
      refine ⟨fun r hr => ?_, runsFrom_pairwise cs c c (BitVec.le_refl _) hp'⟩
      have := runsFrom_ge cs c c (BitVec.le_refl _) hp' r hr
      rw [BitVec.le_def] at this
      rw [BitVec.lt_def]; show l.toNat < _; omega
    · rw [if_neg h]
      exact runsFrom_pairwise cs s c (by rw [BitVec.le_def]; omega) hp'

theorem members_pairwise (s : U8 → Bool) : (members s).Pairwise (· < ·) := by
  unfold members allBytes
  apply List.Pairwise.filter
  rw [List.pairwise_map]
  apply List.Pairwise.imp_of_mem _ List.pairwise_lt_range
  intro a b ha hb hab
  rw [List.mem_range] at ha hb
  rw [BitVec.lt_def, BitField256.ofNat_toNat8 a ha, BitField256.ofNat_toNat8 b hb]
  exact hab

/-- The runs of a set from the list of its members. -/
def runsOf : List U8 → List (U8 × U8)
  | [] => []
  | c :: cs => runsFrom c c cs

theorem runN_iff (s : U8 → Bool) (T : Nat → Prop) (hT : ∀ c : U8, T c.toNat ↔ s c = true)
    (hT' : ∀ n, T n → n < 256) (a b : U8) : RunN T a.toNat b.toNat ↔ IsRun s a b := by
  have hof : ∀ n, T n → s (BitVec.ofNat 8 n) = true := by
    intro n hn
    rw [← hT, BitField256.ofNat_toNat8 n (hT' n hn)]; exact hn
  unfold RunN IsRun
  rw [BitVec.le_def]
  constructor
  · rintro ⟨h1, h2, h3, h4⟩
    refine ⟨h1, fun c h5 h6 => ?_, fun c h5 => ?_, fun c h5 => ?_⟩
    · rw [← hT]; rw [BitVec.le_def] at h5 h6; exact h2 _ h5 h6
    · have := h3 _ h5; rw [hT] at this; simpa using this
    · rw [← h5, hT] at h4; simpa using h4
  · rintro ⟨h1, h2, h3, h4⟩
    refine ⟨h1, fun n h5 h6 => ?_, fun n h5 h6 => ?_, fun h5 => ?_⟩
    · have hn : n < 256 := by have := b.isLt; omega
      have e := BitField256.ofNat_toNat8 n hn
      have := h2 (BitVec.ofNat 8 n) (by rw [BitVec.le_def, e]; exact h5) (by rw [BitVec.le_def, e]; exact h6)
      rw [← hT, e] at this; exact this
    · have e := BitField256.ofNat_toNat8 n (hT' n h6)
      have := h3 (BitVec.ofNat 8 n) (by rw [e]; exact h5)
      rw [hof n h6] at this; cases this
    · have e := BitField256.ofNat_toNat8 _ (hT' _ h5)
      have := h4 (BitVec.ofNat 8 (b.toNat + 1)) e
      rw [hof _ h5] at this; cases this

theorem runsOf_members (s : U8 → Bool) : AreRuns s (runsOf (members s)) := by
  have hp := members_pairwise s
  have hm := BitField256.mem_members s
  cases hl : members s with
  | nil =>
    refine ⟨fun a b => ?_, List.Pairwise.nil⟩
    refine ⟨fun h => (by cases h), fun h => ?_⟩
    have := h.2.1 a (BitVec.le_refl _) h.1
    rw [← hm, hl] at this; cases this
  | cons c cs =>
    rw [hl] at hp
    refine ⟨fun a b => ?_, runsFrom_pairwise cs c c (BitVec.le_refl _) hp⟩
    show (a, b) ∈ runsFrom c c cs ↔ _
    rw [mem_runsFrom cs c c (BitVec.le_refl _) hp a b]
    apply runN_iff
    · intro x
      rw [← hm, hl, List.mem_cons]
      unfold InRuns
      constructor
      · rintro (h | ⟨y, hy, h⟩)
        · left; rw [← BitVec.toNat_inj]; omega
        · right; rw [BitVec.toNat_inj] at h; subst h; exact hy
      · rintro (h | h)
        · subst h; left; exact ⟨Nat.le_refl _, Nat.le_refl _⟩
        · exact .inr ⟨x, h, rfl⟩
    · rintro n (h | ⟨y, _, rfl⟩)
      · have := c.isLt; omega
      · exact y.isLt

/-- The list of runs is determined by the set. -/
theorem areRuns_unique {s : U8 → Bool} {rs rs' : List (U8 × U8)} (h : AreRuns s rs) (h' : AreRuns s rs') :
    rs = rs' := by
  have hle : ∀ {l : List (U8 × U8)}, AreRuns s l → l.Pairwise (fun r q => r.1.toNat < q.1.toNat) := by
    intro l hl
    apply List.Pairwise.imp_of_mem _ hl.2
    intro a b ha _ hab
    have := ((hl.1 a.1 a.2).1 ha).1
    rw [BitVec.le_def] at this
    rw [BitVec.lt_def] at hab
    omega
  have key : ∀ (l l' : List (U8 × U8)), l.Pairwise (fun r q => r.1.toNat < q.1.toNat) →
      l'.Pairwise (fun r q => r.1.toNat < q.1.toNat) → (∀ x, x ∈ l ↔ x ∈ l') → l = l' := by
    intro l
    induction l with
    | nil =>
      intro l' _ _ hm
      cases l' with
      | nil => rfl
      | cons x xs => exact absurd ((hm x).2 (by simp)) (by simp)
    | cons x xs ih =>
      intro l' hx hy hm
      cases l' with
      | nil => exact absurd ((hm x).1 (by simp)) (by simp)
      | cons y ys =>
        rw [List.pairwise_cons] at hx hy
        have hxy : x = y := by
          rcases List.mem_cons.1 ((hm x).1 (by simp)) with h1 | h1
          · exact h1
          · rcases List.mem_cons.1 ((hm y).2 (by simp)) with h2 | h2
            · exact h2.symm
            · have := hy.1 x h1; have := hx.1 y h2; omega
        subst hxy
        rw [ih ys hx.2 hy.2]
        intro z
        constructor
        · intro hz
          rcases List.mem_cons.1 ((hm z).1 (by simp [hz])) with h1 | h1
          · subst h1; have := hx.1 z hz; omega
          · exact h1
        · intro hz
          rcases List.mem_cons.1 ((hm z).2 (by simp [hz])) with h1 | h1
          · subst h1; have := hy.1 z hz; omega
          · exact h1
  exact key rs rs' (hle h) (hle h') (fun x => by rw [h.1 x.1 x.2, h'.1 x.1 x.2])

theorem contiguousFrom_iff (s : U8) : ∀ (cs : List U8) (l b : U8),
    contiguousFrom l cs = some b ↔ runsFrom s l cs = [(s, b)]
  | [], l, b => by unfold contiguousFrom runsFrom; simp
  | c :: cs, l, b => by
    unfold contiguousFrom runsFrom
    by_cases h : c ≠ l + 1#8
    · rw [if_pos h, if_pos h]
      constructor
      · intro h'; cases h'
      · intro h'; exact absurd (List.cons.inj h').2 (runsFrom_ne_nil _ _ _)
    · rw [if_neg h, if_neg h]; exact contiguousFrom_iff s cs c b

theorem runsFrom_head : ∀ (cs : List U8) (s l : U8), ∃ b rs, runsFrom s l cs = (s, b) :: rs
  | [], s, l => ⟨l, [], rfl⟩
  | c :: cs, s, l => by
    unfold runsFrom
    by_cases h : c ≠ l + 1#8
    · rw [if_pos h]; exact ⟨_, _, rfl⟩
    · rw [if_neg h]; exact runsFrom_head cs s c

/-- `contiguous_range` gives the only run if there is just one. -/
theorem contiguousRange_iff (cr : CharReach) (a b : U8) :
    contiguousRange cr = some (a, b) ↔ AreRuns cr.test [(a, b)] := by
  have hr := runsOf_members cr.test
  have : AreRuns cr.test [(a, b)] ↔ runsOf (members cr.test) = [(a, b)] :=
    ⟨fun h => areRuns_unique hr h, fun h => h ▸ hr⟩
  rw [this]
  unfold contiguousRange
  rw [CharReach.memberSeq_eq]
  cases hl : members cr.test with
  | nil => simp [runsOf]
  | cons c cs =>
    show (contiguousFrom c cs).map _ = _ ↔ runsFrom c c cs = _
    rw [Option.map_eq_some_iff]
    constructor
    · rintro ⟨x, hx, h⟩
      rw [contiguousFrom_iff c] at hx
      rw [hx, h]
    · intro h
      obtain ⟨b', rs, h'⟩ := runsFrom_head cs c c
      rw [h'] at h
      injection h with h1 h2
      injection h1 with h3 h4
      subst h3 h4 h2
      exact ⟨b', (contiguousFrom_iff c cs c b').2 h', rfl⟩

/-! ## The loop over the ranges -/

theorem runText_eq (out : CcOutput) (a b : U8) (h : a ≤ b) : runText out (a, b) = rangeText a b out := by
  by_cases hb : b = 0xff#8 ∧ 252 ≤ a.toNat ∧ a.toNat < 255
  · obtain ⟨rfl, h1, h2⟩ := hb
    have : ∀ i : Fin 3, ∀ o : CcOutput, runText o (BitVec.ofNat 8 (252 + i), 0xff#8)
        = rangeText (BitVec.ofNat 8 (252 + i)) 0xff#8 o := by
      intro i o; revert i; cases o <;> decide +kernel
    have h3 := this ⟨a.toNat - 252, by omega⟩ out
    have h4 : BitVec.ofNat 8 (252 + (a.toNat - 252)) = a := by
      rw [← BitVec.toNat_inj, BitField256.ofNat_toNat8 _ (by omega)]; omega
    rw [show 252 + (⟨a.toNat - 252, by omega⟩ : Fin 3).val = 252 + (a.toNat - 252) from rfl, h4] at h3
    exact h3
  · have h1 := C60_describe_range_partial .release 4 (Nat.le_refl _) a b out h (by
      rintro ⟨h1, h2⟩
      exact hb ⟨by rw [← BitVec.toNat_inj]; exact h1, h2⟩)
    have h2 := describeRange_ok .release 4 (Nat.le_refl _) a b out h (by
      rw [BitVec.le_def] at h
      by_cases h3 : b = 0xff#8
      · right
        by_cases h4 : a = b
        · exact .inl h4
        · right
          have h5 : b.toNat = 255 := by rw [h3]; rfl
          rw [← BitVec.toNat_inj] at h4
          have : ¬ (252 ≤ a.toNat ∧ a.toNat < 255) := fun h6 => hb ⟨h3, h6⟩
          omega
      · exact .inl h3)
    rw [h1] at h2
    injection h2

theorem describeRange_run (p : Profile) (fuel : Nat) (hf : 4 ≤ fuel) (a b : U8) (out : CcOutput) (h : a ≤ b)
    (hb : b.toNat < 255) : describeRange p fuel a b out = .ok (runText out (a, b)) := by
  rw [runText_eq out a b h]
  apply describeRange_ok p fuel hf a b out h
  left
  intro h'; rw [h'] at hb; simp at hb

/-- The loop, when the last run does not end at 0xff. -/
theorem rangesLoop_open (p : Profile) (fuel : Nat) (hf : 4 ≤ fuel) (maxLen : Nat) (out : CcOutput) :
    ∀ (cs : List U8) (s l : U8) (i : Nat) (acc : Str), s ≤ l → (l :: cs).Pairwise (· < ·) →
    (maxLen ≤ i ∨ i + (runsFrom s l cs).length ≤ maxLen) →
    (∀ r ∈ (runsFrom s l cs).getLast?, r.2 ≠ 0xff#8) →
    rangesLoop p fuel maxLen out s l i acc cs =
      .ok (acc ++ (runsFrom s l cs).dropLast.flatMap (runText out), i + (runsFrom s l cs).dropLast.length)
  | [], s, l, i, acc, _, _, _, hl => by
    unfold rangesLoop
    have : l ≠ 0xff#8 := hl (s, l) (by simp [runsFrom])
    rw [if_neg this]
    simp [runsFrom, Pure.pure]
  | c :: cs, s, l, i, acc, hsl, hp, hm, hl => by
    have hp' : (c :: cs).Pairwise (· < ·) := (List.pairwise_cons.1 hp).2
    have hlc : l < c := (List.pairwise_cons.1 hp).1 c (by simp)
    rw [BitVec.lt_def] at hlc
    have hsl' := hsl
    rw [BitVec.le_def] at hsl'
    have hc := c.isLt
    unfold rangesLoop
    by_cases h : c ≠ l + 1#8
    · have hr : runsFrom s l (c :: cs) = (s, l) :: runsFrom c c cs := by
        rw [runsFrom, if_pos h]
      rw [hr] at hm hl ⊢
      have hne := runsFrom_ne_nil cs c c
      obtain ⟨x, xs, hx⟩ := List.exists_cons_of_ne_nil hne
      rw [if_pos h, describeRange_run p fuel hf s l out hsl (by omega), Outcome.ok_bind]
      have hmx : ¬ i + 1 = maxLen := by rw [hx] at hm; simp at hm; omega
      rw [if_neg hmx, rangesLoop_open p fuel hf maxLen out cs c c (i + 1) _ (BitVec.le_refl _) hp'
        (by simp at hm; omega) (by
          intro r hr'; apply hl r
          rw [hx] at hr' ⊢; simpa using hr')]
      rw [hx]
      simp [Nat.add_assoc, Nat.add_comm 1]
    · have hr : runsFrom s l (c :: cs) = runsFrom s c cs := by rw [runsFrom, if_neg h]
      rw [if_neg h]
      rw [hr] at hm hl ⊢
      exact rangesLoop_open p fuel hf maxLen out cs s c i acc (by rw [BitVec.le_def]; omega) hp' hm hl

/-- The loop, when the last run `a..=0xff` ends at 0xff. -/
theorem rangesLoop_closed (p : Profile) (fuel : Nat) (hf : 4 ≤ fuel) (maxLen : Nat) (out : CcOutput) (a : U8) :
    ∀ (cs : List U8) (s l : U8) (i : Nat) (acc : Str), s ≤ l → (l :: cs).Pairwise (· < ·) →
    (maxLen ≤ i ∨ i + (runsFrom s l cs).length ≤ maxLen) →
    (runsFrom s l cs).getLast? = some (a, 0xff#8) →
    rangesLoop p fuel maxLen out s l i acc cs =
      (describeRange p fuel a 0xff#8 out).bind (fun d =>
        .ok (acc ++ (runsFrom s l cs).dropLast.flatMap (runText out) ++ d, i + (runsFrom s l cs).length))
  | [], s, l, i, acc, _, _, _, hl => by
    unfold rangesLoop
    simp only [runsFrom, List.getLast?_singleton, Option.some.injEq, Prod.mk.injEq] at hl
    obtain ⟨rfl, rfl⟩ := hl
    rw [if_pos rfl]
    simp [runsFrom, Pure.pure, Bind.bind]
  | c :: cs, s, l, i, acc, hsl, hp, hm, hl => by
    have hp' : (c :: cs).Pairwise (· < ·) := (List.pairwise_cons.1 hp).2
    have hlc : l < c := (List.pairwise_cons.1 hp).1 c (by simp)
    rw [BitVec.lt_def] at hlc
    have hsl' := hsl
    rw [BitVec.le_def] at hsl'
    have hc := c.isLt
    unfold rangesLoop
    by_cases h : c ≠ l + 1#8
    · have hr : runsFrom s l (c :: cs) = (s, l) :: runsFrom c c cs := by
        rw [runsFrom, if_pos h]
      rw [hr] at hm hl ⊢
      have hne := runsFrom_ne_nil cs c c
      obtain ⟨x, xs, hx⟩ := List.exists_cons_of_ne_nil hne
      rw [if_pos h, describeRange_run p fuel hf s l out hsl (by omega), Outcome.ok_bind]
      have hmx : ¬ i + 1 = maxLen := by rw [hx] at hm; simp at hm; omega
      rw [if_neg hmx, rangesLoop_closed p fuel hf maxLen out a cs c c (i + 1) _ (BitVec.le_refl _) hp'
        (by simp at hm; omega) (by rw [hx] at hl ⊢; simpa using hl)]
      rw [hx]
      simp [Nat.add_assoc, Nat.add_comm 1]
    · have hr : runsFrom s l (c :: cs) = runsFrom s c cs := by rw [runsFrom, if_neg h]
      rw [if_neg h]
      rw [hr] at hm hl ⊢
      exact rangesLoop_closed p fuel hf maxLen out a cs s c i acc (by rw [BitVec.le_def]; omega) hp' hm hl

theorem runsFrom_length : ∀ (cs : List U8) (s l : U8), (runsFrom s l cs).length ≤ cs.length + 1
  | [], _, _ => by simp [runsFrom]
  | c :: cs, s, l => by
    unfold runsFrom
    by_cases h : c ≠ l + 1#8
    · rw [if_pos h]; have := runsFrom_length cs c c; simp; omega
    · rw [if_neg h]; have := runsFrom_length cs s c; simp; omega

/-! ## Mnemonics -/

theorem covers_iff (q s : U8 → Bool) : covers q s = true ↔ ∀ c, q c = true → s c = true := by
  unfold covers
  rw [List.all_eq_true]
  constructor
  · intro h c hc
    have hm : c ∈ allBytes := by
      unfold allBytes
      rw [List.mem_map]
      exact ⟨c.toNat, by rw [List.mem_range]; exact c.isLt, by simp⟩
    have := h c hm
    rw [hc] at this; simpa using this
  · intro h c _
    cases hq : q c with
    | false => rfl
    | true => rw [h c hq]; rfl

theorem words_test (c : U8) : words.test c = isWordByte c := by
  unfold words; rw [CharReach.fromBytes_test]
  revert c; decide +kernel
theorem digits_test (c : U8) : digits.test c = isDigitByte c := by
  unfold digits; rw [CharReach.fromBytes_test]
  revert c; decide +kernel
theorem whitespace_test (c : U8) : whitespace.test c = isSpaceByte c := by
  unfold whitespace; rw [CharReach.fromBytes_test]
  revert c; decide +kernel

theorem subset_covers (q : CharReach) (f : U8 → Bool) (hq : ∀ c, q.test c = f c) (cr : CharReach) :
    q.isSubsetOf cr = covers f cr.test := by
  rw [Bool.eq_iff_iff, CharReach.isSubsetOf_iff, covers_iff]
  simp only [hq]

theorem minus_test (cr q : CharReach) (c : U8) : (cr.and q.not).test c = (cr.test c && !q.test c) := by
  rw [CharReach.and_test, CharReach.not_test]

theorem extractMnemonic_eq (cr : CharReach) (out : CcOutput) : extractMnemonic cr out =
    if covers isWordByte cr.test then some (backslash out ++ ['w'], cr.and words.not)
    else if covers isDigitByte cr.test then some (backslash out ++ ['d'], cr.and digits.not)
    else if covers isSpaceByte cr.test then some (backslash out ++ ['s'], cr.and whitespace.not)
    else Option.none := by
  unfold extractMnemonic
  rw [subset_covers words _ words_test, subset_covers digits _ digits_test,
    subset_covers whitespace _ whitespace_test]

theorem covers_false {q s : U8 → Bool} (c : U8) (h1 : q c = true) (h2 : s c = false) : covers q s = false := by
  cases h : covers q s with
  | false => rfl
  | true => rw [covers_iff] at h; rw [h c h1] at h2; cases h2

theorem digit_word (c : U8) (h : isDigitByte c = true) : isWordByte c = true := by
  unfold isWordByte; rw [h]; simp
theorem space_word (c : U8) (h : isSpaceByte c = true) : isWordByte c = false := by
  revert c; decide +kernel
theorem space_digit (c : U8) (h : isSpaceByte c = true) : isDigitByte c = false := by
  revert c; decide +kernel

/-- The mnemonic loop takes the mnemonics of the specification and leaves the rest. -/
theorem mnemonicLoop_eq (maxLen : Nat) (hm : 3 ≤ maxLen) (out : CcOutput) (fuel : Nat) (hf : 4 ≤ fuel)
    (cr : CharReach) : ∃ rest : CharReach, (∀ c, rest.test c = restOf cr.test c) ∧
    mnemonicLoop maxLen out fuel cr 0 [] =
      .ok (.inr ((mnemonics cr.test).flatMap (fun m => backslash out ++ [m]), rest,
        (mnemonics cr.test).length)) := by
  obtain ⟨f, rfl⟩ : ∃ f, fuel = f + 4 := ⟨fuel - 4, by omega⟩
  have stop : ∀ (f : Nat) (cr : CharReach) (i : Nat) (acc : Str), covers isWordByte cr.test = false →
      covers isDigitByte cr.test = false → covers isSpaceByte cr.test = false →
      mnemonicLoop maxLen out (f + 1) cr i acc = .ok (.inr (acc, cr, i)) := by
    intro f cr i acc h1 h2 h3
    unfold mnemonicLoop
    rw [extractMnemonic_eq, h1, h2, h3]
    rfl
  have space : ∀ (f : Nat) (cr : CharReach) (i : Nat) (acc : Str), i + 1 < maxLen →
      covers isWordByte cr.test = false →
      covers isDigitByte cr.test = false → covers isSpaceByte cr.test = true →
      mnemonicLoop maxLen out (f + 2) cr i acc
        = .ok (.inr (acc ++ (backslash out ++ ['s']), cr.and whitespace.not, i + 1)) := by
    intro f cr i acc hi h1 h2 h3
    rw [mnemonicLoop, extractMnemonic_eq, h1, h2, h3]
    simp only [Bool.false_eq_true, if_false, if_true]
    rw [if_neg (by omega), stop]
    · rw [covers_iff] at h3
      cases h : covers isWordByte (cr.and whitespace.not).test with
      | false => rfl
      | true =>
        rw [covers_iff] at h
        have := (covers_iff isWordByte cr.test).2 (fun c hc => by
          have := h c hc; rw [minus_test] at this; exact (Bool.and_eq_true _ _ ▸ this).1)
        rw [this] at h1; cases h1
    · cases h : covers isDigitByte (cr.and whitespace.not).test with
      | false => rfl
      | true =>
        rw [covers_iff] at h
        have := (covers_iff isDigitByte cr.test).2 (fun c hc => by
          have := h c hc; rw [minus_test] at this; exact (Bool.and_eq_true _ _ ▸ this).1)
        rw [this] at h2; cases h2
    · apply covers_false 0x20#8 (by decide)
      rw [minus_test, whitespace_test]; simp [isSpaceByte]
  -- the white space part is independent of what was removed before
  have keep : ∀ (q : CharReach), (∀ c, isSpaceByte c = true → q.test c = false) →
      covers isSpaceByte (cr.and q.not).test = covers isSpaceByte cr.test := by
    intro q hq
    rw [Bool.eq_iff_iff, covers_iff, covers_iff]
    constructor
    · intro h c hc
      have := h c hc; rw [minus_test] at this; exact (Bool.and_eq_true _ _ ▸ this).1
    · intro h c hc
      rw [minus_test, h c hc, hq c hc]; rfl
  have after : ∀ (f : Nat) (q : CharReach) (acc : Str), (∀ c, isSpaceByte c = true → q.test c = false) →
      covers isWordByte (cr.and q.not).test = false → covers isDigitByte (cr.and q.not).test = false →
      ∃ rest : CharReach, (∀ c, rest.test c = (cr.test c && !q.test c
          && !(covers isSpaceByte cr.test && isSpaceByte c))) ∧
        mnemonicLoop maxLen out (f + 2) (cr.and q.not) 1 acc =
          .ok (.inr (acc ++ (if covers isSpaceByte cr.test then backslash out ++ ['s'] else []), rest,
            1 + (if covers isSpaceByte cr.test then 1 else 0))) := by
    intro f q acc hq h1 h2
    cases hs : covers isSpaceByte cr.test with
    | false =>
      refine ⟨cr.and q.not, fun c => by rw [minus_test]; simp, ?_⟩
      rw [stop (f + 1) _ _ _ h1 h2 (by rw [keep q hq]; exact hs)]
      simp
    | true =>
      refine ⟨(cr.and q.not).and whitespace.not, fun c => by
        rw [minus_test, minus_test, whitespace_test]; simp, ?_⟩
      rw [space f _ _ _ (by omega) h1 h2 (by rw [keep q hq]; exact hs)]
      simp
  cases hw : covers isWordByte cr.test with
  | true =>
    have hd : covers isDigitByte cr.test = true := by
      rw [covers_iff] at hw ⊢
      exact fun c hc => hw c (digit_word c hc)
    obtain ⟨rest, hr, h⟩ := after (f + 1) words (backslash out ++ ['w'])
      (fun c hc => by rw [words_test]; exact space_word c hc)
      (covers_false 0x5f#8 (by decide) (by rw [minus_test, words_test]; simp [isWordByte]))
      (covers_false 0x30#8 (by decide) (by rw [minus_test, words_test]; simp [isWordByte, isDigitByte]))
    refine ⟨rest, fun c => ?_, ?_⟩
    · rw [hr, words_test]
      unfold restOf
      rw [hw, hd]
      cases hc : isDigitByte c with
      | false => simp
      | true => rw [digit_word c hc]; simp
    · rw [mnemonicLoop, extractMnemonic_eq, hw]
      simp only [if_true]
      rw [if_neg (by omega)]
      rw [show f + 3 = (f + 1) + 2 from rfl, List.nil_append, show 0 + 1 = 1 from rfl, h]
      unfold mnemonics
      rw [hw]
      cases covers isSpaceByte cr.test <;> simp
  | false =>
    cases hd : covers isDigitByte cr.test with
    | true =>
      obtain ⟨rest, hr, h⟩ := after (f + 1) digits (backslash out ++ ['d'])
        (fun c hc => by rw [digits_test]; exact space_digit c hc)
        (covers_false 0x30#8 (by decide) (by rw [minus_test, digits_test]; simp [isDigitByte]))
        (covers_false 0x30#8 (by decide) (by rw [minus_test, digits_test]; simp [isDigitByte]))
      refine ⟨rest, fun c => ?_, ?_⟩
      · rw [hr, digits_test]
        unfold restOf
        rw [hw, hd]
        simp
      · rw [mnemonicLoop, extractMnemonic_eq, hw, hd]
        simp only [Bool.false_eq_true, if_false, if_true]
        rw [if_neg (by omega)]
        rw [show f + 3 = (f + 1) + 2 from rfl, List.nil_append, show 0 + 1 = 1 from rfl, h]
        unfold mnemonics
        rw [hw, hd]
        cases covers isSpaceByte cr.test <;> simp
    | false =>
      cases hs : covers isSpaceByte cr.test with
      | true =>
        refine ⟨cr.and whitespace.not, fun c => by
          rw [minus_test, whitespace_test]; unfold restOf; rw [hw, hd, hs]; simp, ?_⟩
        rw [show f + 4 = (f + 2) + 2 from rfl, space (f + 2) cr 0 [] (by omega) hw hd hs]
        unfold mnemonics
        rw [hw, hd, hs]
        simp
      | false =>
        refine ⟨cr, fun c => by unfold restOf; rw [hw, hd, hs]; simp, ?_⟩
        rw [stop (f + 3) cr 0 [] hw hd hs]
        unfold mnemonics
        rw [hw, hd, hs]
        rfl

end Rescan.Dump
