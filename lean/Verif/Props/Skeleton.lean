import Verif.Props.Express
import Verif.Props.Reference
import Verif.Spec.Skeleton
/-! # C118: plain characters are all alike -/
namespace Rescan
open Spec

/-! ## Outcomes -/

theorem utf8Size_ascii (c : Char) : c.utf8Size = 1 ↔ c.toNat < 128 := by
  have e : c.val.toNat = c.toNat := rfl
  unfold Char.utf8Size
  dsimp only
  split
  · rename_i h
    rw [UInt32.le_iff_toNat_le, e] at h
    simp only [true_iff]
    exact Nat.lt_succ_of_le h
  · rename_i h
    rw [UInt32.le_iff_toNat_le, e] at h
    have h' : ¬ c.toNat < 128 := fun h2 => h (Nat.le_of_lt_succ h2)
    simp only [h', iff_false]
    split
    · omega
    · split <;> omega

theorem Spec.SameShape.utf8Len : ∀ {s t : Str}, SameShape s t → utf8Len s = utf8Len t
  | [], [], _ => rfl
  | c :: s, d :: t, h => by
    have h1 : c.utf8Size = d.utf8Size := h.1.elim (fun e => by rw [e]) (fun e => e.2.2)
    have h2 := Spec.SameShape.utf8Len h.2
    simp only [Rescan.utf8Len, List.map_cons, List.sum_cons] at *
    omega
  | [], _ :: _, h => h.elim
  | _ :: _, [], h => h.elim

theorem walk_shape (p : Profile) : ∀ (s t : Str) (k : Nat) (o : List Nat), SameShape s t →
    Spec.Reference.walk p k o s = Spec.Reference.walk p k o t
  | [], [], _, _, _ => rfl
  | c :: s, d :: t, k, o, h => by
    have ih := fun k o => walk_shape p s t k o h.2
    rcases h.1 with rfl | ⟨h1, h2, h3⟩
    · unfold Spec.Reference.walk
      simp only [ih]
    · have e1 : c ≠ '(' := fun e => h1 (.inl e)
      have e2 : c ≠ ')' := fun e => h1 (.inr (.inl e))
      have e3 : d ≠ '(' := fun e => h2 (.inl e)
      have e4 : d ≠ ')' := fun e => h2 (.inr (.inl e))
      have e5 : c.toNat < 128 ↔ d.toNat < 128 := by rw [← utf8Size_ascii, ← utf8Size_ascii, h3]
      unfold Spec.Reference.walk
      simp only [ih, e1, e2, e3, e4, e5, if_false]
  | [], _ :: _, _, _, h => h.elim
  | _ :: _, [], _, _, h => h.elim

theorem literal_shape : ∀ (s t : Str), SameShape s t → s.contains '|' = t.contains '|' ∧
    s.any (fun c => c != '(' && c != ')') = t.any (fun c => c != '(' && c != ')')
  | [], [], _ => ⟨rfl, rfl⟩
  | c :: s, d :: t, h => by
    obtain ⟨i1, i2⟩ := literal_shape s t h.2
    rcases h.1 with rfl | ⟨h1, h2, _⟩
    · simp only [List.contains_cons, List.any_cons, i1, i2, and_self]
    · have k1 : ('|' == c) = false := by simpa using fun e : '|' = c => h1 (.inr (.inr e.symm))
      have k2 : ('|' == d) = false := by simpa using fun e : '|' = d => h2 (.inr (.inr e.symm))
      have k3 : (c != '(' && c != ')') = true := by
        simpa using ⟨fun e => h1 (.inl e), fun e => h1 (.inr (.inl e))⟩
      have k4 : (d != '(' && d != ')') = true := by
        simpa using ⟨fun e => h2 (.inl e), fun e => h2 (.inr (.inl e))⟩
      simp only [List.contains_cons, List.any_cons, i1, k1, k2, k3, k4, Bool.true_or, and_self]
  | [], _ :: _, h => h.elim
  | _ :: _, [], h => h.elim

theorem skeleton_verb {s t : Str} (h : SameSkeleton s t) :
    (Spec.Reference.verb s = none ∧ Spec.Reference.verb t = none ∧ SameShape s t) ∨
      ∃ v b b', Spec.Reference.verb s = some (v, b) ∧ Spec.Reference.verb t = some (v, b') ∧ SameShape b b' := by
  rcases h with ⟨h1, h2, h3⟩ | ⟨v, b, b', h1, h2, h3⟩
  · exact .inl ⟨Reference.verb_none.2 h1, Reference.verb_none.2 h2, h3⟩
  · exact .inr ⟨v, b, b', Reference.verb_some.2 h1, Reference.verb_some.2 h2, h3⟩

theorem read_skeleton (p : Profile) {s t : Str} (h : SameSkeleton s t) :
    Spec.Reference.read p s = Spec.Reference.read p t := by
  unfold Spec.Reference.read
  rcases skeleton_verb h with ⟨h1, h2, h3⟩ | ⟨v, b, b', h1, h2, h3⟩
  · rw [h1, h2]; exact walk_shape p s t 0 [] h3
  · rw [h1, h2]
    simp only [walk_shape p b b' (v.length + 3) [] h3]

theorem skeleton_len {s t : Str} (h : SameSkeleton s t) : utf8Len s = utf8Len t := by
  rcases h with ⟨_, _, h⟩ | ⟨v, b, b', ⟨h1, _⟩, ⟨h2, _⟩, h⟩
  · exact h.utf8Len
  · have := h.utf8Len
    rw [h1, h2]
    simp only [utf8Len, List.map_append, List.sum_append] at *
    omega

theorem isLiteral_skeleton {s t : Str} (h : SameSkeleton s t) :
    Spec.Reference.isLiteral s = Spec.Reference.isLiteral t := by
  unfold Spec.Reference.isLiteral Spec.Reference.afterVerb
  rcases skeleton_verb h with ⟨h1, h2, h3⟩ | ⟨v, b, b', h1, h2, h3⟩
  · rw [h1, h2]
    obtain ⟨e1, e2⟩ := literal_shape s t h3
    simp only [e1, e2]
  · rw [h1, h2]
    obtain ⟨e1, e2⟩ := literal_shape b b' h3
    simp only [e1, e2]

theorem addAll_skeleton (p : Profile) (g : Grey) : ∀ (ss ts : List Str) (xs : List (Flags × Nat))
    (seen : List Spec.Reference.Noted) (j : Nat), SameSkeletons ss ts →
    Spec.Reference.addAll p g seen j (ss.zip xs) = Spec.Reference.addAll p g seen j (ts.zip xs)
  | [], [], _, _, _, _ => rfl
  | s :: ss, t :: ts, [], _, _, _ => rfl
  | s :: ss, t :: ts, x :: xs, seen, j, h => by
    have e : Spec.Reference.add p g seen j s x.1 x.2 = Spec.Reference.add p g seen j t x.1 x.2 := by
      unfold Spec.Reference.add
      rw [skeleton_len h.1, read_skeleton p h.1, isLiteral_skeleton h.1]
    simp only [List.zip_cons_cons, Spec.Reference.addAll, e, addAll_skeleton p g ss ts xs _ _ h.2]
  | [], _ :: _, _, _, _, h => h.elim
  | _ :: _, [], _, _, _, h => h.elim

theorem skeletons_length : ∀ {ss ts : List Str}, SameSkeletons ss ts → ss.length = ts.length
  | [], [], _ => rfl
  | _ :: _, _ :: _, h => by simp [skeletons_length h.2]
  | [], _ :: _, h => h.elim
  | _ :: _, [], h => h.elim

/-- C118: the outcome of compiling — the database, the text and index of the error, or the panic —
depends on the expressions only through their lengths, their control verbs, where `(`, `)` and `|`
stand, and where characters beyond ASCII do. -/
theorem C118_compile (p : Profile) (es es' : List Str) (fs : List Flags) (ids : List Nat) (mode : Mode)
    (g : Grey) (hs : Sane g) (h : SameSkeletons es es') :
    compileMultiInt p es fs ids mode g = compileMultiInt p es' fs ids mode g := by
  rw [C105_reference p es fs ids mode g hs, C105_reference p es' fs ids mode g hs]
  unfold Spec.Reference.compile
  have hl := skeletons_length h
  have hn : es = [] ↔ es' = [] := by rw [← List.length_eq_zero_iff, hl, List.length_eq_zero_iff]
  simp only [hn, hl, addAll_skeleton p g es es' (fs.zip ids) [] 0 h]

example : SameSkeletons ["(*UCP)a(b|é".toList, "xyz".toList] ["(*UCP)*(.|ü".toList, "[a]".toList] := by
  refine ⟨.inr ⟨"UCP".toList, "a(b|é".toList, "*(.|ü".toList, ?_, ?_, ?_⟩, .inl ⟨?_, ?_, ?_⟩, trivial⟩
  · exact ⟨rfl, by decide, by decide⟩
  · exact ⟨rfl, by decide, by decide⟩
  · decide +kernel
  · exact noVerb_of_head (by decide)
  · exact noVerb_of_head (by decide)
  · decide +kernel

/-- C118: so does whether and how parsing fails (for texts of less than 2 GiB), whatever the modes. -/
theorem C118_parse (p : Profile) (s t : Str) (mode mode' : ParseMode) (h : SameSkeleton s t)
    (hlen : utf8Len s < 2 ^ 31) :
    (parse p s mode).bind (fun _ => .ok ()) = (parse p t mode').bind (fun _ => (.ok () : Res Unit)) := by
  rw [C105_read p s mode hlen, C105_read p t mode' (by rw [← skeleton_len h]; exact hlen)]
  exact read_skeleton p h

example := C118_parse .debug "(a".toList "(*".toList ParseMode.default { ParseMode.default with caseless := true }
  (.inl ⟨by rw [← controlVerb_none]; rfl, by rw [← controlVerb_none]; rfl, by decide +kernel⟩) (by decide +kernel)

/-! ## Languages -/

def rename (f : U8 → U8) (c : Char) : Char :=
  if c.toNat < 128 ∧ ¬ special c then Char.ofNat (f (BitVec.ofNat 8 c.toNat)).toNat else c

mutual
def Spec.Item.ren (f : U8 → U8) : Item → Item
  | .lit c => .lit (rename f c)
  | .group a => .group (a.ren f)
def Spec.Seq.ren (f : U8 → U8) : Seq → Seq
  | .nil => .nil
  | .cons i s => .cons (i.ren f) (s.ren f)
def Spec.Alts.ren (f : U8 → U8) : Alts → Alts
  | .one s => .one (s.ren f)
  | .more s a => .more (s.ren f) (a.ren f)
end

theorem rename_special (f : U8 → U8) {c : Char} (h : special c) : rename f c = c := by
  unfold rename; rw [if_neg (fun e => e.2 h)]

mutual
theorem Item.ren_print (f : U8 → U8) : ∀ i : Item, (i.ren f).print = i.print.map (rename f)
  | .lit c => rfl
  | .group a => by
    simp only [Item.ren, Item.print, Alts.ren_print f a, List.map_cons, List.map_append, List.map_nil,
      rename_special f (show special '(' from .inl rfl), rename_special f (show special ')' from .inr (.inl rfl)),
      List.cons_append]
theorem Seq.ren_print (f : U8 → U8) : ∀ s : Seq, (s.ren f).print = s.print.map (rename f)
  | .nil => rfl
  | .cons i s => by simp only [Seq.ren, Seq.print, Item.ren_print f i, Seq.ren_print f s, List.map_append]
theorem Alts.ren_print (f : U8 → U8) : ∀ a : Alts, (a.ren f).print = a.print.map (rename f)
  | .one s => by simp only [Alts.ren, Alts.print, Seq.ren_print f s]
  | .more s a => by
    simp only [Alts.ren, Alts.print, Seq.ren_print f s, Alts.ren_print f a, List.map_append, List.map_cons,
      rename_special f (show special '|' from .inr (.inr rfl))]
end

theorem plain_byte {c : Char} (h1 : c.toNat < 128) (h2 : ¬ special c) : Plain (BitVec.ofNat 8 c.toNat) := by
  have e : (BitVec.ofNat 8 c.toNat).toNat = c.toNat := Nat.mod_eq_of_lt (by omega)
  rw [plain_iff, e]
  exact ⟨h1, by rwa [Char.ofNat_toNat]⟩

theorem rename_plain {f : U8 → U8} (hf : ∀ b, Plain b → Plain (f b)) {c : Char} (h1 : c.toNat < 128)
    (h2 : ¬ special c) : (rename f c).toNat < 128 ∧ ¬ special (rename f c) ∧
      (rename f c).toNat = (f (BitVec.ofNat 8 c.toNat)).toNat := by
  unfold rename
  rw [if_pos ⟨h1, h2⟩, toNat_ofNat_byte]
  have := (plain_iff _).1 (hf _ (plain_byte h1 h2))
  exact ⟨this.1, this.2, rfl⟩

/-- With a string, renaming commutes with changing the case of letters. -/
def KeepsCase (f : U8 → U8) : Prop :=
  ∀ a b, Plain a → (casePair (f a) b ↔ ∃ a', casePair a a' ∧ b = f a')

theorem lit_ren {f : U8 → U8} {cl : Bool} (hf : ∀ b, Plain b → Plain (f b)) (hc : cl = true → KeepsCase f)
    {c : Char} (h1 : c.toNat < 128) (h2 : ¬ special c) (w : List U8) :
    Lang (.cls (litClass cl (rename f c))) w ↔ ∃ v, Lang (.cls (litClass cl c)) v ∧ w = v.map f := by
  obtain ⟨r1, r2, r3⟩ := rename_plain hf h1 h2
  rw [lit_lang cl _ (by omega)]
  simp only [lit_lang cl c (by omega)]
  have e : (BitVec.ofNat 8 c.toNat).toNat = c.toNat := Nat.mod_eq_of_lt (by omega)
  have e' : (BitVec.ofNat 8 (rename f c).toNat) = f (BitVec.ofNat 8 c.toNat) := by
    rw [r3]; simp
  constructor
  · rintro ⟨b, rfl, h | ⟨h, h'⟩⟩
    · refine ⟨[BitVec.ofNat 8 c.toNat], ⟨_, rfl, .inl e⟩, ?_⟩
      rw [r3, BitVec.toNat_inj] at h
      simp [h]
    · rw [e'] at h'
      obtain ⟨a', ha, rfl⟩ := (hc h _ b (plain_byte h1 h2)).1 (casePair_symm h')
      exact ⟨[a'], ⟨a', rfl, .inr ⟨h, casePair_symm ha⟩⟩, rfl⟩
  · rintro ⟨v, ⟨b, rfl, h | ⟨h, h'⟩⟩, rfl⟩
    · refine ⟨f b, rfl, .inl ?_⟩
      rw [r3, BitVec.toNat_inj]
      congr 1
      apply BitVec.eq_of_toNat_eq
      rw [h, e]
    · refine ⟨f b, rfl, .inr ⟨h, ?_⟩⟩
      rw [e']
      exact casePair_symm ((hc h _ _ (plain_byte h1 h2)).2 ⟨b, casePair_symm h', rfl⟩)

mutual
theorem Item.ren_spec {f : U8 → U8} {cl : Bool} (hf : ∀ b, Plain b → Plain (f b)) (hc : cl = true → KeepsCase f) :
    ∀ i : Item, i.Wf → IsAscii i.print → (i.ren f).Wf ∧ IsAscii (i.ren f).print ∧
      ∀ w, (i.ren f).lang (litClass cl) w ↔ ∃ v, i.lang (litClass cl) v ∧ w = v.map f
  | .lit c, hw, ha => by
    have h1 := ha c (by simp [Item.print])
    obtain ⟨r1, r2, _⟩ := rename_plain hf h1 hw
    exact ⟨r2, fun d hd => by obtain rfl := List.mem_singleton.1 hd; exact r1, lit_ren hf hc h1 hw⟩
  | .group a, hw, ha => by
    obtain ⟨h1, h2, h3⟩ := Alts.ren_spec hf hc a hw (fun c hc => ha c (by simp [Item.print, hc]))
    refine ⟨h1, ?_, h3⟩
    intro d hd
    simp only [Item.ren, Item.print, List.cons_append, List.mem_cons, List.mem_append, List.not_mem_nil, or_false] at hd
    rcases hd with rfl | hd | rfl
    · decide
    · exact h2 d hd
    · decide
theorem Seq.ren_spec {f : U8 → U8} {cl : Bool} (hf : ∀ b, Plain b → Plain (f b)) (hc : cl = true → KeepsCase f) :
    ∀ s : Seq, s.Wf → IsAscii s.print → (s.ren f).Wf ∧ IsAscii (s.ren f).print ∧
      ∀ w, (s.ren f).lang (litClass cl) w ↔ ∃ v, s.lang (litClass cl) v ∧ w = v.map f
  | .nil, _, _ => ⟨trivial, by intro c hc; simp [Seq.ren, Seq.print] at hc, fun w =>
      ⟨fun h => ⟨[], rfl, h⟩, fun ⟨v, h1, h2⟩ => by cases (show v = [] from h1); exact h2⟩⟩
  | .cons i s, hw, ha => by
    simp only [Seq.print, isAscii_append] at ha
    obtain ⟨h1, h2, h3⟩ := Item.ren_spec hf hc i hw.1 ha.1
    obtain ⟨g1, g2, g3⟩ := Seq.ren_spec hf hc s hw.2 ha.2
    refine ⟨⟨h1, g1⟩, by simp only [Seq.ren, Seq.print, isAscii_append]; exact ⟨h2, g2⟩, fun w => ?_⟩
    simp only [Seq.ren, Seq.lang, h3, g3]
    constructor
    · rintro ⟨_, _, rfl, ⟨v1, a1, rfl⟩, ⟨v2, a2, rfl⟩⟩
      exact ⟨v1 ++ v2, ⟨v1, v2, rfl, a1, a2⟩, by simp⟩
    · rintro ⟨_, ⟨v1, v2, rfl, a1, a2⟩, rfl⟩
      exact ⟨v1.map f, v2.map f, by simp, ⟨v1, a1, rfl⟩, ⟨v2, a2, rfl⟩⟩
theorem Alts.ren_spec {f : U8 → U8} {cl : Bool} (hf : ∀ b, Plain b → Plain (f b)) (hc : cl = true → KeepsCase f) :
    ∀ a : Alts, a.Wf → IsAscii a.print → (a.ren f).Wf ∧ IsAscii (a.ren f).print ∧
      ∀ w, (a.ren f).lang (litClass cl) w ↔ ∃ v, a.lang (litClass cl) v ∧ w = v.map f
  | .one s, hw, ha => Seq.ren_spec hf hc s hw ha
  | .more s a, hw, ha => by
    simp only [Alts.print, isAscii_append] at ha
    obtain ⟨h1, h2, h3⟩ := Seq.ren_spec hf hc s hw.1 ha.1
    obtain ⟨g1, g2, g3⟩ := Alts.ren_spec hf hc a hw.2 (fun c hc => ha.2 c (by simp [hc]))
    refine ⟨⟨h1, g1⟩, ?_, fun w => ?_⟩
    · simp only [Alts.ren, Alts.print, isAscii_append]
      refine ⟨h2, fun c hc => ?_⟩
      rcases List.mem_cons.1 hc with rfl | hc
      · decide
      · exact g2 c hc
    · simp only [Alts.ren, Alts.lang, h3, g3]
      constructor
      · rintro (⟨v, a1, a2⟩ | ⟨v, a1, a2⟩)
        · exact ⟨v, .inl a1, a2⟩
        · exact ⟨v, .inr a1, a2⟩
      · rintro ⟨v, a1 | a1, a2⟩
        · exact .inl ⟨v, a1, a2⟩
        · exact .inr ⟨v, a1, a2⟩
end

/-- C118: if plain characters are replaced by plain characters throughout, the strings matched are those
matched before with the same replacements; without regard to case, if the replacement keeps letters
that differ in case only apart from others.  (Neither text may start with a control verb.) -/
theorem C118_language (s : Str) (mode : ParseMode) (L : List U8 → Prop) (f : U8 → U8)
    (hf : ∀ b, Plain b → Plain (f b))
    (hc : mode.caseless = true → ∀ a b, Plain a → (casePair (f a) b ↔ ∃ a', casePair a a' ∧ b = f a'))
    (h1 : NoVerb s) (h2 : NoVerb (renamed f s)) (h : Denotes s mode L) :
    Denotes (renamed f s) mode (fun w => ∃ v, L v ∧ w = v.map f) := by
  obtain ⟨a, a1, a2, a3, a4⟩ := denotes_tree h
  have hp := isBody_noVerb a2 h1
  obtain ⟨b1, b2, b3⟩ := Alts.ren_spec hf hc a a1 a3
  refine tree_denotes (a.ren f) b1 ?_ b2 (fun w => by rw [b3]; simp only [a4])
  rw [Alts.ren_print, hp]
  exact .inl ⟨h2, rfl⟩

example : ∃ L, Denotes "a(b|*)c".toList ParseMode.default L ∧
    Denotes (renamed (fun b => if b = 97 then 46 else b) "a(b|*)c".toList) ParseMode.default
      (fun w => ∃ v, L v ∧ w = v.map (fun b => if b = 97 then 46 else b)) ∧
    renamed (fun b => if b = 97 then 46 else b) "a(b|*)c".toList = ".(b|*)c".toList := by
  obtain ⟨L, h⟩ := denotes_of_ok (s := "a(b|*)c".toList) (mode := ParseMode.default) (by decide +kernel)
  have e : renamed (fun b => if b = 97 then 46 else b) "a(b|*)c".toList = ".(b|*)c".toList := by decide +kernel
  refine ⟨L, h, C118_language _ _ L _ ?_ (by intro h; cases h) (noVerb_of_head (by decide)) ?_ h, e⟩
  · intro b hb; split
    · decide
    · exact hb
  · rw [e]; exact noVerb_of_head (by decide)

end Rescan
