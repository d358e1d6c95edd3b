import Verif.Proofs.DumpUnique
import Verif.Spec.ReadByte
import Verif.Spec.Witness
/-! # C72 (continued), C76: what can be read off a dump -/
namespace Rescan
open Spec Dump

/-! ## C72 -/

/-- C72, what holds (missing: patterns of different case sensitivity): if two patterns are parsed with the
same case sensitivity, whatever the other settings, equal dumps mean equal trees. -/
theorem C72_same_case_partial (pr pr' p : Profile) (fuel : Nat) (hf : 4 ≤ fuel) (ptr ptr' : Str)
    (mode mode' : ParseMode) (hm : mode.caseless = mode'.caseless) (c c' : Component) (m m' : ParseMode)
    (h : parse pr ptr mode = .ok (c, m)) (h' : parse pr' ptr' mode' = .ok (c', m'))
    (hd : dumpTree p fuel c = dumpTree p fuel c') : c = c' := by
  rw [C62_tree_dump pr p fuel hf ptr mode c m h, C62_tree_dump pr' p fuel hf ptr' mode' c' m' h'] at hd
  injection hd with hd
  obtain ⟨a, ⟨_, _, ha, rfl⟩, _⟩ := C30_parse_sound pr ptr mode c m (litClass mode.caseless)
    (fun c hc => litClass_spec mode.caseless c (by omega)) h
  obtain ⟨b, ⟨_, _, hb, rfl⟩, _⟩ := C30_parse_sound pr' ptr' mode' c' m' (litClass mode'.caseless)
    (fun c hc => litClass_spec mode'.caseless c (by omega)) h'
  have hn : ∀ c : Char, c.toNat < 128 → ∀ x, litClass mode.caseless c = .ascii x →
      ∃ c : Char, c.toNat < 128 ∧ IsLitClass mode.caseless c (.ascii x) := by
    intro c hc x hx
    have := litClass_spec mode.caseless c (by omega)
    rw [hx] at this
    exact ⟨c, hc, this⟩
  refine (dump_unique (text := firstByteText)
    (Q := fun x => ∃ c : Char, c.toNat < 128 ∧ IsLitClass mode.caseless c (.ascii x))
    (fun x _ => firstByteText_no_newline x.cr) ?_ _ _ 0 [] [] ?_ ?_ (.inl rfl) (.inl rfl) (by rw [hd])).1
  · rintro x y ⟨c, hc, hx⟩ ⟨d, hd, hy⟩ ht
    exact litClass_text_inj hx hy hc hd ht
  · exact ⟨rfl, rfl, nice_alts hn a 1 ha⟩
  · rw [← hm]
    exact ⟨rfl, rfl, nice_alts hn b 1 hb⟩

example : ∃ x y, parse .release "(*UTF8)(a|b)1".toList ParseMode.default = .ok x ∧
    parse .debug "(a|b)1".toList ParseMode.default = .ok y ∧ dumpTree .debug 4 x.1 = dumpTree .debug 4 y.1 := by
  obtain ⟨x, h⟩ := Outcome.exists_of_isOk (x := parse .release "(*UTF8)(a|b)1".toList ParseMode.default) (by decide +kernel)
  obtain ⟨y, h'⟩ := Outcome.exists_of_isOk (x := parse .debug "(a|b)1".toList ParseMode.default) (by decide +kernel)
  refine ⟨x, y, h, h', ?_⟩
  have : (match parse .release "(*UTF8)(a|b)1".toList ParseMode.default, parse .debug "(a|b)1".toList ParseMode.default with
    | .ok x, .ok y => decide (dumpTree .debug 4 x.1 = dumpTree .debug 4 y.1)
    | _, _ => false) = true := by decide +kernel
  rw [h, h'] at this
  exact of_decide_eq_true this

mutual
theorem item_build_inj {cls : Char → ComponentClass}
    (h : ∀ c d : Char, c.toNat < 128 → d.toNat < 128 → cls c = cls d → c = d) : ∀ (i j : Item) (k : Nat),
    IsAscii i.print → IsAscii j.print → (i.build cls k).1 = (j.build cls k).1 → i = j
  | .lit c, .lit d, k, hi, hj, e => by
    rw [Item.build, Item.build] at e
    injection e with e
    rw [h c d (hi c (by simp [Item.print])) (hj d (by simp [Item.print])) e]
  | .lit c, .group a, k, hi, hj, e => by rw [Item.build, Item.build] at e; cases e
  | .group a, .lit c, k, hi, hj, e => by rw [Item.build, Item.build] at e; cases e
  | .group a, .group b, k, hi, hj, e => by
    rw [Item.build, Item.build] at e
    injection e with e
    injection e with e
    rw [alts_build_inj h a b (k + 1) (fun c hc => hi c (by simp [Item.print, hc]))
      (fun c hc => hj c (by simp [Item.print, hc])) e]
theorem seq_build_inj {cls : Char → ComponentClass}
    (h : ∀ c d : Char, c.toNat < 128 → d.toNat < 128 → cls c = cls d → c = d) : ∀ (i j : Seq) (k : Nat),
    IsAscii i.print → IsAscii j.print → (i.build cls k).1 = (j.build cls k).1 → i = j
  | .nil, .nil, k, hi, hj, e => rfl
  | .nil, .cons i s, k, hi, hj, e => by rw [Seq.build, Seq.build] at e; cases e
  | .cons i s, .nil, k, hi, hj, e => by rw [Seq.build, Seq.build] at e; cases e
  | .cons i s, .cons j t, k, hi, hj, e => by
    rw [Seq.build, Seq.build] at e
    injection e with e1 e2
    have := item_build_inj h i j k (fun c hc => hi c (by simp [Seq.print, hc]))
      (fun c hc => hj c (by simp [Seq.print, hc])) e1
    subst this
    rw [seq_build_inj h s t _ (fun c hc => hi c (by simp [Seq.print, hc]))
      (fun c hc => hj c (by simp [Seq.print, hc])) e2]
theorem alts_build_inj {cls : Char → ComponentClass}
    (h : ∀ c d : Char, c.toNat < 128 → d.toNat < 128 → cls c = cls d → c = d) : ∀ (i j : Alts) (k : Nat),
    IsAscii i.print → IsAscii j.print → (i.build cls k).1 = (j.build cls k).1 → i = j
  | .one s, .one t, k, hi, hj, e => by
    rw [Alts.build, Alts.build] at e
    rw [seq_build_inj h s t k (fun c hc => hi c (by simp [Alts.print, hc]))
      (fun c hc => hj c (by simp [Alts.print, hc])) e]
  | .one s, .more t a, k, hi, hj, e => by
    rw [Alts.build, Alts.build] at e
    cases s with
    | nil => rw [Seq.build] at e; cases e
    | cons i s =>
      rw [Seq.build] at e
      injection e with e1 e2
      cases i <;> (rw [Item.build] at e1; cases e1)
  | .more t a, .one s, k, hi, hj, e => by
    rw [Alts.build, Alts.build] at e
    cases s with
    | nil => rw [Seq.build] at e; cases e
    | cons i s =>
      rw [Seq.build] at e
      injection e with e1 e2
      cases i <;> (rw [Item.build] at e1; cases e1)
  | .more s a, .more t b, k, hi, hj, e => by
    rw [Alts.build, Alts.build] at e
    injection e with e1
    injection e1 with e1
    injection e1 with e1
    injection e1 with e1 e2
    injection e1 with e1
    have := seq_build_inj h s t k (fun c hc => hi c (by simp [Alts.print, hc]))
      (fun c hc => hj c (by simp [Alts.print, hc])) e1
    subst this
    rw [branches_build_inj h a b _ (fun c hc => hi c (by simp [Alts.print, hc]))
      (fun c hc => hj c (by simp [Alts.print, hc])) e2]
theorem branches_build_inj {cls : Char → ComponentClass}
    (h : ∀ c d : Char, c.toNat < 128 → d.toNat < 128 → cls c = cls d → c = d) : ∀ (i j : Alts) (k : Nat),
    IsAscii i.print → IsAscii j.print → (i.branches cls k).1 = (j.branches cls k).1 → i = j
  | .one s, .one t, k, hi, hj, e => by
    rw [Alts.branches, Alts.branches] at e
    injection e with e1
    injection e1 with e1
    rw [seq_build_inj h s t k (fun c hc => hi c (by simp [Alts.print, hc]))
      (fun c hc => hj c (by simp [Alts.print, hc])) e1]
  | .one s, .more t a, k, hi, hj, e => by
    rw [Alts.branches, Alts.branches] at e
    injection e with e1 e2
    cases a <;> (rw [Alts.branches] at e2; cases e2)
  | .more t a, .one s, k, hi, hj, e => by
    rw [Alts.branches, Alts.branches] at e
    injection e with e1 e2
    cases a <;> (rw [Alts.branches] at e2; cases e2)
  | .more s a, .more t b, k, hi, hj, e => by
    rw [Alts.branches, Alts.branches] at e
    injection e with e1 e2
    injection e1 with e1
    have := seq_build_inj h s t k (fun c hc => hi c (by simp [Alts.print, hc]))
      (fun c hc => hj c (by simp [Alts.print, hc])) e1
    subst this
    rw [branches_build_inj h a b _ (fun c hc => hi c (by simp [Alts.print, hc]))
      (fun c hc => hj c (by simp [Alts.print, hc])) e2]
end

theorem litClass_false_inj (c d : Char) (hc : c.toNat < 128) (hd : d.toNat < 128)
    (he : litClass false c = litClass false d) : c = d := by
  have h1 := litClass_spec false c (by omega)
  have h2 := litClass_spec false d (by omega)
  rw [he] at h1
  cases hx : litClass false d with
  | ascii x =>
    rw [hx] at h1 h2
    have ec : (BitVec.ofNat 8 c.toNat : U8).toNat = c.toNat := by simp; omega
    have := (h2.2 (BitVec.ofNat 8 c.toNat)).1 ((h1.2 _).2 (.inl ec))
    simp only [Bool.false_eq_true, false_and, or_false] at this
    rw [ec] at this
    exact Char.toNat_inj.1 this

/-- C72: the dump of a case sensitive pattern determines its text (after any control verb). -/
theorem C72_sensitive_text_partial (pr pr' p : Profile) (fuel : Nat) (hf : 4 ≤ fuel) (ptr ptr' body body' : Str)
    (mode mode' : ParseMode) (hm : mode.caseless = false) (hm' : mode'.caseless = false) (c c' : Component)
    (m m' : ParseMode) (h : parse pr ptr mode = .ok (c, m)) (h' : parse pr' ptr' mode' = .ok (c', m'))
    (hb : IsBody ptr body) (hb' : IsBody ptr' body')
    (hd : dumpTree p fuel c = dumpTree p fuel c') : body = body' := by
  have hcc := C72_same_case_partial pr pr' p fuel hf ptr ptr' mode mode' (by rw [hm, hm']) c c' m m' h h' hd
  subst hcc
  obtain ⟨a, ⟨_, hba, ha, hra⟩, _⟩ := C30_parse_sound pr ptr mode c m (litClass false)
    (fun c hc => by rw [hm]; exact litClass_spec false c (by omega)) h
  obtain ⟨b, ⟨_, hbb, hb2, hrb⟩, _⟩ := C30_parse_sound pr' ptr' mode' c m' (litClass false)
    (fun c hc => by rw [hm']; exact litClass_spec false c (by omega)) h'
  have e := hra.symm.trans hrb
  unfold Alts.root at e
  injection e with e
  injection e with e
  have := alts_build_inj litClass_false_inj a b 1 ha hb2 e
  subst this
  rw [isBody_unique hb hba, isBody_unique hb' hbb]

example : (parse .release "(*UTF8)(a|b)c".toList ParseMode.default).isOk = true ∧
    (parse .release "(a|b)c".toList ParseMode.default).isOk = true := by decide +kernel

/-! ### What a dump says, exactly -/

mutual
/-- The grammar tree with every literal replaced. -/
def mapItem (f : Char → Char) : Item → Item
  | .lit c => .lit (f c)
  | .group a => .group (mapAlts f a)
def mapSeq (f : Char → Char) : Seq → Seq
  | .nil => .nil
  | .cons i s => .cons (mapItem f i) (mapSeq f s)
def mapAlts (f : Char → Char) : Alts → Alts
  | .one s => .one (mapSeq f s)
  | .more s a => .more (mapSeq f s) (mapAlts f a)
end

mutual
theorem mapItem_print {f : Char → Char} (hf : ∀ c, special c → f c = c) : ∀ i : Item,
    (mapItem f i).print = i.print.map f
  | .lit c => by rw [mapItem, Item.print, Item.print]; rfl
  | .group a => by
    rw [mapItem, Item.print, Item.print, mapAlts_print hf a]
    simp [hf '(' (.inl rfl), hf ')' (.inr (.inl rfl))]
theorem mapSeq_print {f : Char → Char} (hf : ∀ c, special c → f c = c) : ∀ i : Seq,
    (mapSeq f i).print = i.print.map f
  | .nil => by rw [mapSeq, Seq.print]; rfl
  | .cons i s => by
    rw [mapSeq, Seq.print, Seq.print, mapItem_print hf i, mapSeq_print hf s, List.map_append]
theorem mapAlts_print {f : Char → Char} (hf : ∀ c, special c → f c = c) : ∀ i : Alts,
    (mapAlts f i).print = i.print.map f
  | .one s => by rw [mapAlts, Alts.print, Alts.print, mapSeq_print hf s]
  | .more s a => by
    rw [mapAlts, Alts.print, Alts.print, mapSeq_print hf s, mapAlts_print hf a]
    simp [hf '|' (.inr (.inr rfl))]
end

mutual
theorem mapItem_wf {f : Char → Char} (hf : ∀ c : Char, c.toNat < 128 → special (f c) → special c) : ∀ i : Item,
    IsAscii i.print → i.Wf → (mapItem f i).Wf
  | .lit c, ha, h => by
    rw [mapItem]
    exact fun hc => h (hf c (ha c (by simp [Item.print])) hc)
  | .group a, ha, h => by
    rw [mapItem]
    exact mapAlts_wf hf a (fun c hc => ha c (by simp [Item.print, hc])) h
theorem mapSeq_wf {f : Char → Char} (hf : ∀ c : Char, c.toNat < 128 → special (f c) → special c) : ∀ i : Seq,
    IsAscii i.print → i.Wf → (mapSeq f i).Wf
  | .nil, _, _ => by rw [mapSeq]; exact trivial
  | .cons i s, ha, h => by
    rw [mapSeq]
    exact ⟨mapItem_wf hf i (fun c hc => ha c (by simp [Seq.print, hc])) h.1,
      mapSeq_wf hf s (fun c hc => ha c (by simp [Seq.print, hc])) h.2⟩
theorem mapAlts_wf {f : Char → Char} (hf : ∀ c : Char, c.toNat < 128 → special (f c) → special c) : ∀ i : Alts,
    IsAscii i.print → i.Wf → (mapAlts f i).Wf
  | .one s, ha, h => by
    rw [mapAlts]
    exact mapSeq_wf hf s (fun c hc => ha c (by simp [Alts.print, hc])) h
  | .more s a, ha, h => by
    rw [mapAlts]
    exact ⟨mapSeq_wf hf s (fun c hc => ha c (by simp [Alts.print, hc])) h.1,
      mapAlts_wf hf a (fun c hc => ha c (by simp [Alts.print, hc])) h.2⟩
end

theorem dumpComps_isEmpty {text : CharReach → Str} {d : Nat} {cs cs' : List Component}
    (h : dumpComps text d cs = dumpComps text d cs') : cs.isEmpty = cs'.isEmpty := by
  have ne : ∀ c l, dumpComps text d (c :: l) ≠ [] := by
    intro c l h
    obtain ⟨x, t, _, h2⟩ := dump_head text d c
    rw [dumpComps, h2] at h
    simp at h
  cases cs with
  | nil =>
    cases cs' with
    | nil => rfl
    | cons c l => rw [dumpComps] at h; exact absurd h.symm (ne c l)
  | cons c l =>
    cases cs' with
    | nil => exact absurd (h.trans (by rw [dumpComps])) (ne c l)
    | cons c' l' => rfl

section
variable {text : CharReach → Str} {cls cls' : Char → ComponentClass} {f : Char → Char}
  (h : ∀ c : Char, c.toNat < 128 → ∀ d, dump text d (.cls (cls c)) = dump text d (.cls (cls' (f c))))

include h
mutual
theorem dump_mapItem : ∀ (i : Item) (k d : Nat), IsAscii i.print →
    dump text d (i.build cls k).1 = dump text d ((mapItem f i).build cls' k).1 ∧
    (i.build cls k).2 = ((mapItem f i).build cls' k).2
  | .lit c, k, d, ha => by
    rw [mapItem, Item.build, Item.build]
    exact ⟨h c (ha c (by simp [Item.print])) d, rfl⟩
  | .group a, k, d, ha => by
    obtain ⟨h1, h2⟩ := dump_mapAlts a (k + 1) (d + 1) (fun c hc => ha c (by simp [Item.print, hc]))
    rw [mapItem, Item.build, Item.build]
    exact ⟨by simp only [dump, dumpSeq]; rw [h1, dumpComps_isEmpty h1], h2⟩
theorem dump_mapSeq : ∀ (s : Seq) (k d : Nat), IsAscii s.print →
    dumpComps text d (s.build cls k).1 = dumpComps text d ((mapSeq f s).build cls' k).1 ∧
    (s.build cls k).2 = ((mapSeq f s).build cls' k).2
  | .nil, k, d, ha => by rw [mapSeq, Seq.build, Seq.build]; exact ⟨rfl, rfl⟩
  | .cons i s, k, d, ha => by
    obtain ⟨h1, h2⟩ := dump_mapItem i k d (fun c hc => ha c (by simp [Seq.print, hc]))
    obtain ⟨h3, h4⟩ := dump_mapSeq s (i.build cls k).2 d (fun c hc => ha c (by simp [Seq.print, hc]))
    rw [mapSeq, Seq.build, Seq.build]
    simp only [dumpComps]
    rw [h1, h3, h4, h2]
    exact ⟨rfl, rfl⟩
theorem dump_mapAlts : ∀ (a : Alts) (k d : Nat), IsAscii a.print →
    dumpComps text d (a.build cls k).1 = dumpComps text d ((mapAlts f a).build cls' k).1 ∧
    (a.build cls k).2 = ((mapAlts f a).build cls' k).2
  | .one s, k, d, ha => by
    rw [mapAlts, Alts.build, Alts.build]
    exact dump_mapSeq s k d (fun c hc => ha c (by simp [Alts.print, hc]))
  | .more s a, k, d, ha => by
    obtain ⟨h1, h2⟩ := dump_mapSeq s k (d + 1 + 1) (fun c hc => ha c (by simp [Alts.print, hc]))
    obtain ⟨h3, h4⟩ := dump_mapBranches a (s.build cls k).2 (d + 1) (fun c hc => ha c (by simp [Alts.print, hc]))
    rw [mapAlts, Alts.build, Alts.build]
    simp only [dumpComps, dump, dumpAlt, dumpSeqs, dumpSeq]
    rw [h1, h3, h4, h2, dumpComps_isEmpty h1]
    exact ⟨rfl, rfl⟩
theorem dump_mapBranches : ∀ (a : Alts) (k d : Nat), IsAscii a.print →
    dumpSeqs text d (a.branches cls k).1 = dumpSeqs text d ((mapAlts f a).branches cls' k).1 ∧
    (a.branches cls k).2 = ((mapAlts f a).branches cls' k).2
  | .one s, k, d, ha => by
    obtain ⟨h1, h2⟩ := dump_mapSeq s k (d + 1) (fun c hc => ha c (by simp [Alts.print, hc]))
    rw [mapAlts, Alts.branches, Alts.branches]
    simp only [dumpSeqs, dumpSeq]
    rw [h1, h2, dumpComps_isEmpty h1]
    exact ⟨rfl, rfl⟩
  | .more s a, k, d, ha => by
    obtain ⟨h1, h2⟩ := dump_mapSeq s k (d + 1) (fun c hc => ha c (by simp [Alts.print, hc]))
    obtain ⟨h3, h4⟩ := dump_mapBranches a (s.build cls k).2 d (fun c hc => ha c (by simp [Alts.print, hc]))
    rw [mapAlts, Alts.branches, Alts.branches]
    simp only [dumpSeqs, dumpSeq]
    rw [h1, h3, h4, h2, dumpComps_isEmpty h1]
    exact ⟨rfl, rfl⟩
end
end

/-- What the dump shows of a pattern: its text, in capitals if it is caseless. -/
def shownText (caseless : Bool) (body : Str) : Str := if caseless then body.map Char.toUpper else body

theorem toUpper_ascii (c : Char) (h : c.toNat < 128) :
    c.toUpper.toNat = if 97 ≤ c.toNat ∧ c.toNat ≤ 122 then c.toNat - 32 else c.toNat := by
  have key : ∀ n : Fin 128, (Char.ofNat n).toUpper.toNat =
      if 97 ≤ n.val ∧ n.val ≤ 122 then n.val - 32 else n.val := by decide +kernel
  have := key ⟨c.toNat, h⟩
  simpa [Char.ofNat_toNat] using this

/-- A caseless letter is shown as its capital. -/
theorem firstByte_upper (c : Char) (h : c.toNat < 128) (a b : AsciiComponentClass)
    (ha : litClass true c = .ascii a) (hb : litClass false c.toUpper = .ascii b) :
    firstByteText a.cr = firstByteText b.cr := by
  have hu := toUpper_ascii c h
  have hu' : c.toUpper.toNat < 128 := by rw [hu]; split <;> omega
  have ha' := litClass_spec true c (by omega)
  have hb' := litClass_spec false c.toUpper (by omega)
  rw [ha] at ha'
  rw [hb] at hb'
  have ec : (BitVec.ofNat 8 c.toNat : U8).toNat = c.toNat := by simp; omega
  have ed : (BitVec.ofNat 8 c.toUpper.toNat : U8).toNat = c.toUpper.toNat := by simp; omega
  obtain ⟨r, hr⟩ := members_head (s := a.cr.test) (x := BitVec.ofNat 8 c.toUpper.toNat) ⟨by
      rw [ha'.2]
      simp only [true_and]
      unfold casePair isUpper
      rw [ec, ed, hu]
      split <;> omega, fun y hy => by
      rw [ha'.2] at hy
      simp only [true_and] at hy
      unfold casePair isUpper at hy
      rw [ec] at hy
      rw [BitVec.le_def, ed, hu]
      split <;> omega⟩
  obtain ⟨r', hr'⟩ := members_head (s := b.cr.test) (x := BitVec.ofNat 8 c.toUpper.toNat) ⟨by
      rw [hb'.2]; exact .inl ed, fun y hy => by
      rw [hb'.2] at hy
      simp only [Bool.false_eq_true, false_and, or_false] at hy
      rw [BitVec.le_def, ed, hy]
      exact Nat.le_refl _⟩
  unfold firstByteText
  rw [hr, hr']

theorem toUpper_special (c : Char) (h : special c) : c.toUpper = c := by
  rcases h with rfl | rfl | rfl <;> decide

theorem special_toUpper (c : Char) (hc : c.toNat < 128) (h : special c.toUpper) : special c := by
  have hu := toUpper_ascii c hc
  have key : ∀ d : Char, c.toUpper = d → d.toNat = 40 ∨ d.toNat = 41 ∨ d.toNat = 124 → c = d := by
    intro d e hd
    rw [e] at hu
    apply Char.toNat_inj.1
    split at hu <;> omega
  rcases h with h | h | h
  · exact .inl (key _ h (.inl rfl))
  · exact .inr (.inl (key _ h (.inr (.inl rfl))))
  · exact .inr (.inr (key _ h (.inr (.inr rfl))))

/-- The dump of a pattern is that of the case sensitive pattern it is shown as. -/
theorem dump_shown (k : Bool) (a : Alts) (ha : IsAscii a.print) (hw : a.Wf) :
    ∃ b : Alts, b.Wf ∧ IsAscii b.print ∧ b.print = shownText k a.print ∧
      dump firstByteText 0 (a.root (litClass k)) = dump firstByteText 0 (b.root (litClass false)) := by
  cases k with
  | false => exact ⟨a, hw, ha, rfl, rfl⟩
  | true =>
    have hp := mapAlts_print toUpper_special a
    refine ⟨mapAlts Char.toUpper a, mapAlts_wf special_toUpper a ha hw, ?_, hp, ?_⟩
    · rw [hp]
      intro c hc
      rw [List.mem_map] at hc
      obtain ⟨d, hd, rfl⟩ := hc
      have := ha d hd
      rw [toUpper_ascii d this]
      split <;> omega
    · obtain ⟨h1, _⟩ := dump_mapAlts (text := firstByteText) (cls := litClass true) (cls' := litClass false)
        (f := Char.toUpper) (by
          intro c hc d
          cases h : litClass true c with
          | ascii x =>
            cases h' : litClass false c.toUpper with
            | ascii y =>
              rw [dump, dump, firstByte_upper c hc x y h h']) a 1 1 ha
      unfold Alts.root
      simp only [dump, dumpSeq]
      rw [h1, dumpComps_isEmpty h1]

/-- C72, exactly what a dump says: two patterns, whatever their settings, have the same dump if and only if
they are shown alike, where a case sensitive pattern is shown as its text (after any control verb) and a
caseless one as its text in capitals. -/
theorem C72_exact_partial (pr pr' p : Profile) (fuel : Nat) (hf : 4 ≤ fuel) (ptr ptr' body body' : Str)
    (mode mode' : ParseMode) (c c' : Component) (m m' : ParseMode)
    (h : parse pr ptr mode = .ok (c, m)) (h' : parse pr' ptr' mode' = .ok (c', m'))
    (hb : IsBody ptr body) (hb' : IsBody ptr' body') :
    dumpTree p fuel c = dumpTree p fuel c' ↔
      shownText mode.caseless body = shownText mode'.caseless body' := by
  rw [C62_tree_dump pr p fuel hf ptr mode c m h, C62_tree_dump pr' p fuel hf ptr' mode' c' m' h']
  obtain ⟨a, ⟨haw, hba, ha, rfl⟩, _⟩ := C30_parse_sound pr ptr mode c m (litClass mode.caseless)
    (fun c hc => litClass_spec mode.caseless c (by omega)) h
  obtain ⟨b, ⟨hbw, hbb, hb2, rfl⟩, _⟩ := C30_parse_sound pr' ptr' mode' c' m' (litClass mode'.caseless)
    (fun c hc => litClass_spec mode'.caseless c (by omega)) h'
  rw [isBody_unique hb hba, isBody_unique hb' hbb]
  obtain ⟨x, hxw, hx, hxp, hxd⟩ := dump_shown mode.caseless a ha haw
  obtain ⟨y, hyw, hy, hyp, hyd⟩ := dump_shown mode'.caseless b hb2 hbw
  rw [hxd, hyd, ← hxp, ← hyp]
  have hn : ∀ c : Char, c.toNat < 128 → ∀ x, litClass false c = .ascii x →
      ∃ c : Char, c.toNat < 128 ∧ IsLitClass false c (.ascii x) := by
    intro c hc x hx
    have := litClass_spec false c (by omega)
    rw [hx] at this
    exact ⟨c, hc, this⟩
  constructor
  · intro hd
    injection hd with hd
    have e := (dump_unique (text := firstByteText)
      (Q := fun x => ∃ c : Char, c.toNat < 128 ∧ IsLitClass false c (.ascii x))
      (fun x _ => firstByteText_no_newline x.cr) (by
        rintro x y ⟨c, hc, hx⟩ ⟨d, hd, hy⟩ ht
        exact litClass_text_inj hx hy hc hd ht) (x.root (litClass false)) (y.root (litClass false)) 0 [] []
      ⟨rfl, rfl, nice_alts hn x 1 hx⟩ ⟨rfl, rfl, nice_alts hn y 1 hy⟩ (.inl rfl) (.inl rfl) (by rw [hd])).1
    unfold Alts.root at e
    injection e with e
    injection e with e
    rw [alts_build_inj (litClass_false_inj) x y 1 hx hy e]
  · intro hp
    rw [print_inj x y hxw hyw hp]

/-- A caseless `(a|b)1` and a case sensitive `(A|B)1` behind a control verb have one dump. -/
example : (parse .release "(a|b)1".toList caselessMode).isOk = true ∧
    (parse .release "(*UTF8)(A|B)1".toList ParseMode.default).isOk = true ∧
    IsBody "(a|b)1".toList "(a|b)1".toList ∧ IsBody "(*UTF8)(A|B)1".toList "(A|B)1".toList ∧
    shownText true "(a|b)1".toList = shownText false "(A|B)1".toList := by
  exact ⟨by decide +kernel, by decide +kernel, .inl ⟨by rw [← controlVerb_none]; decide, rfl⟩,
    .inr ⟨['U', 'T', 'F', '8'], ⟨by decide, by decide, by decide⟩, by decide⟩, by decide +kernel⟩

/-! ## C76 -/

/-- C76, full statement: read as part of a regular expression (for DOT, after undoing the quoting), the
description of a byte stands for that byte. -/
def DescriptionsReadBack : Prop :=
  ∀ c : U8, readByte (describeChar c .text) = some c.toNat ∧
    readByte (unquote (describeChar c .dot)) = some c.toNat

/-- C76 is false: the byte 1 is described as `\x 1`. -/
theorem C76_false : ¬ DescriptionsReadBack := by
  intro h
  have := (h 1#8).1
  revert this
  decide +kernel

/-- C76, exact (missing: bytes below 16 other than tab, newline and carriage return, whose hexadecimal
number is padded with a space): which descriptions can be read, and that these stand for the byte described.
All descriptions are visible ASCII or spaces. -/
theorem C76_read_back_partial (c : U8) (out : CcOutput) :
    let text := match out with
      | .text => describeChar c .text
      | .dot => unquote (describeChar c .dot)
    (16 ≤ c.toNat ∨ c.toNat = 9 ∨ c.toNat = 10 ∨ c.toNat = 13 → readByte text = some c.toNat) ∧
    (¬ (16 ≤ c.toNat ∨ c.toNat = 9 ∨ c.toNat = 10 ∨ c.toNat = 13) → readByte text = none ∧
      ∃ d, text = ['\\', 'x', ' ', d] ∧ hexValue d = some c.toNat) ∧
    ∀ x ∈ text, ' ' ≤ x ∧ x ≤ '~' := by
  have key : ∀ c : U8, ∀ text ∈ [describeChar c .text, unquote (describeChar c .dot)],
      (16 ≤ c.toNat ∨ c.toNat = 9 ∨ c.toNat = 10 ∨ c.toNat = 13 → readByte text = some c.toNat) ∧
      (¬ (16 ≤ c.toNat ∨ c.toNat = 9 ∨ c.toNat = 10 ∨ c.toNat = 13) → readByte text = none ∧
        text = ['\\', 'x', ' ', text.getLast?.getD ' '] ∧
        hexValue (text.getLast?.getD ' ') = some c.toNat) ∧
      ∀ x ∈ text, ' ' ≤ x ∧ x ≤ '~' := by decide +kernel
  cases out
  · obtain ⟨h1, h2, h3⟩ := key c _ (List.mem_cons_self)
    exact ⟨h1, fun h => ⟨(h2 h).1, _, (h2 h).2⟩, h3⟩
  · obtain ⟨h1, h2, h3⟩ := key c _ (List.mem_cons_of_mem _ List.mem_cons_self)
    exact ⟨h1, fun h => ⟨(h2 h).1, _, (h2 h).2⟩, h3⟩

example : unquote (describeChar 0x22#8 .dot) = "\"".toList ∧ readByte "\\x7f".toList = some 127 := by
  decide +kernel

/-- C76, the forms: a visible ASCII character is described by itself unless it has a meaning of its own, and
then by itself after a backslash; tab, newline and return are `\t`, `\n` and `\r`; the backslash and all
other bytes take four characters. -/
theorem C76_forms (c : U8) :
    (0x21 ≤ c.toNat ∧ c.toNat ≤ 0x7e ∧ ¬ isMeta (Char.ofNat c.toNat) →
      describeChar c .text = [Char.ofNat c.toNat]) ∧
    (isMeta (Char.ofNat c.toNat) ∧ c.toNat ≠ '\\'.toNat → describeChar c .text = ['\\', Char.ofNat c.toNat]) ∧
    (c.toNat = 9 → describeChar c .text = ['\\', 't']) ∧ (c.toNat = 10 → describeChar c .text = ['\\', 'n']) ∧
    (c.toNat = 13 → describeChar c .text = ['\\', 'r']) ∧
    ((c.toNat ≤ 0x20 ∧ c.toNat ≠ 9 ∧ c.toNat ≠ 10 ∧ c.toNat ≠ 13) ∨ c.toNat = '\\'.toNat ∨ 0x7f ≤ c.toNat →
      (describeChar c .text).take 2 = ['\\', 'x'] ∧ (describeChar c .text).length = 4) := by
  revert c
  decide +kernel

example : describeChar 0x61#8 .text = ['a'] ∧ describeChar 0x5b#8 .text = "\\[".toList ∧
    describeChar 0x5c#8 .text = "\\x5c".toList ∧ describeChar 0x20#8 .text = "\\x20".toList := by decide +kernel

end Rescan
