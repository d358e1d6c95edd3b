import Verif.Props.Express
import Verif.Spec.TreeShape
/-! # C117: which trees the parser makes -/
namespace Rescan
open Spec

/-! ## The trees of patterns have the shape -/

mutual
theorem Item.shape {cl : Bool} : ∀ (i : Item) (k : Nat), i.Wf → IsAscii i.print →
    ItemShape cl (i.build (litClass cl) k).1
  | .lit c, k, hw, ha => by
    have := ha c (by simp [Item.print])
    exact ⟨c, this, hw, litClass_spec cl c (by omega)⟩
  | .group a, k, hw, ha =>
    ⟨rfl, by simp, rfl, Alts.shape a (k + 1) hw (fun c hc => ha c (by simp [Item.print, hc]))⟩
theorem Seq.shape {cl : Bool} : ∀ (s : Seq) (k : Nat), s.Wf → IsAscii s.print →
    ItemsShape cl (s.build (litClass cl) k).1
  | .nil, k, _, _ => trivial
  | .cons i s, k, hw, ha => by
    simp only [Seq.print, isAscii_append] at ha
    exact ⟨Item.shape i k hw.1 ha.1, Seq.shape s _ hw.2 ha.2⟩
theorem Alts.shape {cl : Bool} : ∀ (a : Alts) (k : Nat), a.Wf → IsAscii a.print →
    ItemsShape cl (a.build (litClass cl) k).1 ∨ ChoiceShape cl (a.build (litClass cl) k).1
  | .one s, k, hw, ha => .inl (Seq.shape s k hw ha)
  | .more s a, k, hw, ha => by
    simp only [Alts.print, isAscii_append] at ha
    obtain ⟨h1, h2⟩ := Alts.shapeB a (s.build (litClass cl) k).2 hw.2 (fun c hc => ha.2 c (by simp [hc]))
    refine .inr ⟨⟨?_, ⟨rfl, rfl, rfl, Seq.shape s k hw.1 ha.1⟩, h1⟩, rfl⟩
    simp only [List.length_cons]
    omega
theorem Alts.shapeB {cl : Bool} : ∀ (a : Alts) (k : Nat), a.Wf → IsAscii a.print →
    BranchesShape cl (a.branches (litClass cl) k).1 ∧ 1 ≤ (a.branches (litClass cl) k).1.length
  | .one s, k, hw, ha => ⟨⟨⟨rfl, rfl, rfl, Seq.shape s k hw ha⟩, trivial⟩, by simp [Alts.branches]⟩
  | .more s a, k, hw, ha => by
    simp only [Alts.print, isAscii_append] at ha
    obtain ⟨h1, h2⟩ := Alts.shapeB a (s.build (litClass cl) k).2 hw.2 (fun c hc => ha.2 c (by simp [hc]))
    exact ⟨⟨⟨rfl, rfl, rfl, Seq.shape s k hw.1 ha.1⟩, h1⟩, by simp [Alts.branches]⟩
end

/-! ## Trees of the shape are trees of patterns -/

/-- The numbers of the groups in a list of captures. -/
def nums (l : List (Bool × Option Nat × Option String)) : List (Option Nat) :=
  (l.filter (fun x => !x.1)).map (fun x => x.2.1)

/-- The numbers are those from `k` on. -/
def From (k n : Nat) (l : List (Option Nat)) : Prop :=
  l = (List.range' k n).map (fun j => some (j % 2 ^ 32))

theorem nums_append (l m : List (Bool × Option Nat × Option String)) : nums (l ++ m) = nums l ++ nums m := by
  simp [nums]

theorem From.split {k n : Nat} {l m : List (Option Nat)} (h : From k n (l ++ m)) :
    ∃ n1 n2, n = n1 + n2 ∧ From k n1 l ∧ From (k + n1) n2 m := by
  have hl := congrArg List.length h
  simp at hl
  refine ⟨l.length, m.length, hl.symm, ?_⟩
  unfold From at h ⊢
  rw [← hl, ← List.range'_append_1, List.map_append] at h
  have := List.append_inj h (by simp)
  exact this

theorem From.cons {k n : Nat} {x : Option Nat} {l : List (Option Nat)} (h : From k n (x :: l)) :
    ∃ n', n = n' + 1 ∧ x = some (k % 2 ^ 32) ∧ From (k + 1) n' l := by
  cases n with
  | zero => simp [From] at h
  | succ n => simp [From, List.range'_succ] at h; exact ⟨n, rfl, h.1, h.2⟩

mutual
theorem Item.of_shape {cl : Bool} : ∀ (c : Component) (k n : Nat), ItemShape cl c → From k n (nums (captures c)) →
    ∃ i : Item, i.Wf ∧ IsAscii i.print ∧ i.build (litClass cl) k = (c, k + n)
  | .cls a, k, n, ⟨c, h1, h2, h3⟩, hn => by
    obtain rfl : n = 0 := by
      have := congrArg List.length hn; simp [captures, nums] at this; omega
    refine ⟨.lit c, h2, ?_, ?_⟩
    · intro d hd; obtain rfl := List.mem_singleton.1 hd; exact h1
    · simp only [Item.build, isLitClass_unique (litClass_spec cl c (by omega)) h3, Nat.add_zero]
  | .sequence (.mk cs alt idx name), k, n, ⟨h1, h2, h3, h4⟩, hn => by
    simp only [captures, capturesSeq, nums, List.filter_cons, Bool.not_false, if_true, List.map_cons] at hn
    obtain ⟨n', rfl, rfl, hn2⟩ := hn.cons
    subst h1 h3
    obtain ⟨a, a1, a2, a3⟩ := Alts.of_shape cs (k + 1) n' h4 hn2
    refine ⟨.group a, a1, ?_, ?_⟩
    · intro d hd
      simp only [Item.print, List.cons_append, List.mem_cons, List.mem_append, List.not_mem_nil, or_false] at hd
      rcases hd with rfl | hd | rfl
      · decide
      · exact a2 d hd
      · decide
    · simp only [Item.build, a3]
      rw [Nat.add_right_comm, Nat.add_assoc]
  | .alternation _, _, _, h, _ => h.elim
theorem Seq.of_shape {cl : Bool} : ∀ (cs : List Component) (k n : Nat), ItemsShape cl cs →
    From k n (nums (capturesAll cs)) →
    ∃ s : Seq, s.Wf ∧ IsAscii s.print ∧ s.build (litClass cl) k = (cs, k + n)
  | [], k, n, _, hn => by
    obtain rfl : n = 0 := by
      have := congrArg List.length hn; simp [capturesAll, nums] at this; omega
    exact ⟨.nil, trivial, by intro c hc; simp [Seq.print] at hc, rfl⟩
  | c :: cs, k, n, h, hn => by
    rw [capturesAll, nums_append] at hn
    obtain ⟨n1, n2, rfl, e1, e2⟩ := hn.split
    obtain ⟨i, i1, i2, i3⟩ := Item.of_shape c k n1 h.1 e1
    obtain ⟨s, s1, s2, s3⟩ := Seq.of_shape cs (k + n1) n2 h.2 e2
    refine ⟨.cons i s, ⟨i1, s1⟩, by rw [Seq.print, isAscii_append]; exact ⟨i2, s2⟩, ?_⟩
    simp only [Seq.build, i3, s3, Nat.add_assoc]
theorem Alts.of_shape {cl : Bool} : ∀ (cs : List Component) (k n : Nat),
    (ItemsShape cl cs ∨ ChoiceShape cl cs) → From k n (nums (capturesAll cs)) →
    ∃ a : Alts, a.Wf ∧ IsAscii a.print ∧ a.build (litClass cl) k = (cs, k + n)
  | cs, k, n, .inl h, hn => by
    obtain ⟨s, s1, s2, s3⟩ := Seq.of_shape cs k n h hn
    exact ⟨.one s, s1, s2, s3⟩
  | [], _, _, .inr h, _ => h.elim
  | .cls _ :: _, _, _, .inr h, _ => h.1.elim
  | .sequence _ :: _, _, _, .inr h, _ => h.1.elim
  | .alternation (.mk bs) :: cs, k, n, .inr h, hn => by
    obtain ⟨⟨h1, h2⟩, h3⟩ := h
    subst h3
    simp only [capturesAll, captures, List.append_nil] at hn
    obtain ⟨a, a1, a2, a3⟩ := Alts.of_shapeB bs k n (by intro h; simp [h] at h1) h2 hn
    cases a with
    | one s =>
      have := congrArg (fun x => x.1.length) a3
      simp [Alts.branches] at this
      omega
    | more s a =>
      refine ⟨.more s a, a1, a2, ?_⟩
      simp only [Alts.branches, Prod.mk.injEq] at a3
      simp only [Alts.build, a3]
theorem Alts.of_shapeB {cl : Bool} : ∀ (bs : List ComponentSequence) (k n : Nat), bs ≠ [] → BranchesShape cl bs →
    From k n (nums (capturesBranches bs)) →
    ∃ a : Alts, a.Wf ∧ IsAscii a.print ∧ a.branches (litClass cl) k = (bs, k + n)
  | [], _, _, h, _, _ => absurd rfl h
  | .mk cs alt idx name :: bs, k, n, _, ⟨⟨h1, h2, h3, h4⟩, h5⟩, hn => by
    subst h1 h2 h3
    simp only [capturesBranches, capturesSeq, List.cons_append, nums, List.filter_cons,
      Bool.not_true, Bool.false_eq_true, if_false] at hn
    rw [List.filter_append, List.map_append] at hn
    obtain ⟨n1, n2, rfl, e1, e2⟩ := From.split hn
    obtain ⟨s, s1, s2, s3⟩ := Seq.of_shape cs k n1 h4 e1
    by_cases hb : bs = []
    · subst hb
      obtain rfl : n2 = 0 := by
        have := congrArg List.length e2; simp [capturesBranches] at this; omega
      exact ⟨.one s, s1, s2, by simp only [Alts.branches, s3]; rfl⟩
    · obtain ⟨a, a1, a2, a3⟩ := Alts.of_shapeB bs (k + n1) n2 hb h5 e2
      refine ⟨.more s a, ⟨s1, a1⟩, ?_, by simp only [Alts.branches, s3, a3, Nat.add_assoc]⟩
      rw [Alts.print, isAscii_append]
      refine ⟨s2, fun c hc => ?_⟩
      rcases List.mem_cons.1 hc with rfl | hc
      · decide
      · exact a2 c hc
end

/-- C117: exactly which trees the parser makes: numbered sequences without a name, of items or of one
alternation of two unnumbered branches of items or more, the items being classes of one plain character
and again such sequences, with the sequences numbered from 0 in the order of their beginnings (modulo
2^32). -/
theorem C117_trees (mode : ParseMode) (c : Component) :
    (∃ s m, parse .release s mode = .ok (c, m)) ↔
      ∃ seq, c = .sequence seq ∧ GroupShape mode.caseless seq ∧
        ∃ n, groupNumbers c = (List.range n).map (fun k => some (k % 2 ^ 32)) := by
  constructor
  · rintro ⟨s, m, h⟩
    obtain ⟨body, _, hn, _⟩ := C31_capture_numbering _ _ _ _ _ h
    obtain ⟨a, ⟨a1, a2, a3, rfl⟩, _⟩ := C30_parse_sound _ _ _ _ _ (litClass mode.caseless)
      (fun c hc => litClass_spec _ c (by omega)) h
    exact ⟨_, rfl, ⟨rfl, by simp, rfl, Alts.shape a 1 a1 a3⟩, _, hn⟩
  · rintro ⟨⟨cs, alt, idx, name⟩, rfl, ⟨h1, h2, h3, h4⟩, n, hn⟩
    have hn' : From 0 n (nums (captures (.sequence (.mk cs alt idx name)))) := by
      unfold From; rw [← List.range_eq_range']; exact hn
    simp only [captures, capturesSeq, nums, List.filter_cons, Bool.not_false, if_true, List.map_cons] at hn'
    obtain ⟨n', rfl, rfl, hn2⟩ := hn'.cons
    subst h1 h3
    obtain ⟨a, a1, a2, a3⟩ := Alts.of_shape cs 1 n' h4 hn2
    obtain ⟨m, hm⟩ := C30_parse_print ("(*UTF8)".toList ++ a.print) mode a (litClass mode.caseless)
      (fun c hc => litClass_spec _ c (by omega)) a1 a2
      (.inr ⟨['U', 'T', 'F', '8'], ⟨rfl, by decide, by decide⟩, .inr (.inl rfl)⟩)
    refine ⟨_, m, hm.trans ?_⟩
    simp only [Alts.root, a3]

example : ∃ x, parse .release "a((b|)c)|d".toList ParseMode.default = .ok x ∧
    groupNumbers x.1 = (List.range 3).map (fun k => some (k % 2 ^ 32)) :=
  Outcome.exists_ok (x := parse .release "a((b|)c)|d".toList ParseMode.default)
    (q := fun x => groupNumbers x.1 = (List.range 3).map (fun k => some (k % 2 ^ 32))) (by decide +kernel)

/-- A group with a number out of order is in no tree of the parser. -/
example : ¬ ∃ s m, parse .release s ParseMode.default =
    .ok (.sequence (.mk [.sequence (.mk [] none (some 2) none)] none (some 0) none), m) := by
  rw [C117_trees]
  rintro ⟨seq, _, _, n, hn⟩
  rcases n with _ | _ | n
  · simp [groupNumbers, captures, capturesSeq] at hn
  · simp [groupNumbers, captures, capturesSeq, capturesAll] at hn
  · rw [List.range_succ_eq_map, List.range_succ_eq_map] at hn
    simp [groupNumbers, captures, capturesSeq, capturesAll] at hn

/-- C117: the trees without groups are those of patterns without a parenthesis, in every build. -/
theorem C117_no_groups (pr : Profile) (mode : ParseMode) (c : Component) :
    (∃ s m, '(' ∉ s ∧ parse pr s mode = .ok (c, m)) ↔
      ∃ seq, c = .sequence seq ∧ GroupShape mode.caseless seq ∧ groupNumbers c = [some 0] := by
  constructor
  · rintro ⟨s, m, hs, h⟩
    obtain ⟨body, hb, hn, _⟩ := C31_capture_numbering _ _ _ _ _ h
    obtain rfl := isBody_noVerb hb (noVerb_of_no_open hs)
    rw [List.count_eq_zero.2 hs] at hn
    obtain ⟨a, ⟨a1, a2, a3, rfl⟩, _⟩ := C30_parse_sound _ _ _ _ _ (litClass mode.caseless)
      (fun c hc => litClass_spec _ c (by omega)) h
    exact ⟨_, rfl, ⟨rfl, by simp, rfl, Alts.shape a 1 a1 a3⟩, hn⟩
  · rintro ⟨seq, rfl, h1, h2⟩
    obtain ⟨s, m, h⟩ := (C117_trees mode (.sequence seq)).2 ⟨seq, rfl, h1, 1, h2⟩
    obtain ⟨body, hb, hn, _⟩ := C31_capture_numbering _ _ _ _ _ h
    obtain ⟨a, ⟨a1, a2, a3, a4⟩, _⟩ := C30_parse_sound _ _ _ _ _ (litClass mode.caseless)
      (fun c hc => litClass_spec _ c (by omega)) h
    have hno : '(' ∉ a.print := by
      rw [← List.count_eq_zero, isBody_unique a2 hb]
      rw [h2] at hn
      have := congrArg List.length hn
      simpa using this
    have hbody : IsBody a.print a.print := .inl ⟨noVerb_of_no_open hno, rfl⟩
    obtain ⟨m', hm⟩ := C30_parse_print a.print mode a (litClass mode.caseless)
      (fun c hc => litClass_spec _ c (by omega)) a1 a3 hbody
    rw [← a4] at hm
    refine ⟨a.print, m', hno, ?_⟩
    cases pr with
    | release => exact hm
    | debug =>
      rw [← C78_parse, hm]
      rw [Bool.eq_false_iff]
      intro hpanic
      obtain ⟨body', n, x, hb', hx, hx', _⟩ := (C33_panics_partial _ _ _).1 hpanic
      obtain rfl := isBody_unique hb' hbody
      have hmem : x ∈ a.print := List.mem_of_getElem? hx
      rcases hx' with hx' | ⟨_, rfl, _⟩
      · have := a3 x hmem; omega
      · exact hno hmem

example : ∃ x, parse .debug "ab||*".toList ParseMode.default = .ok x ∧ groupNumbers x.1 = [some 0] :=
  Outcome.exists_ok (x := parse .debug "ab||*".toList ParseMode.default)
    (q := fun x => groupNumbers x.1 = [some 0]) (by decide +kernel)

end Rescan
