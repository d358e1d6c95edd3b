import Verif.Model.Bytes
import Verif.Spec.Utf8
/-! # Lemmas: UTF-8 and the string functions on bytes -/
namespace Rescan.Bytes
open Spec

variable {ε : Type}

theorem toNat_valid (c : Char) : c.toNat < 0xd800 ∨ (0xdfff < c.toNat ∧ c.toNat < 0x110000) := c.valid

theorem utf8Size_eq (c : Char) : c.utf8Size = if c.toNat < 0x80 then 1 else if c.toNat < 0x800 then 2
    else if c.toNat < 0x10000 then 3 else 4 := by
  have h : ∀ k : UInt32, (c.val ≤ k) = (c.toNat ≤ k.toNat) := fun _ => rfl
  unfold Char.utf8Size
  simp only [h]
  have e1 : (0x7F : UInt32).toNat = 0x7F := rfl
  have e2 : (0x7FF : UInt32).toNat = 0x7FF := rfl
  have e3 : (0xFFFF : UInt32).toNat = 0xFFFF := rfl
  have e1' : (UInt32.ofNatLT 0x7F (by decide)).toNat = 0x7F := rfl
  have e2' : (UInt32.ofNatLT 0x7FF (by decide)).toNat = 0x7FF := rfl
  have e3' : (UInt32.ofNatLT 0xFFFF (by decide)).toNat = 0xFFFF := rfl
  simp only [e1, e2, e3, e1', e2', e3']
  repeat' split
  all_goals omega

theorem encodeChar_length (c : Char) : (encodeChar c).length = c.utf8Size := by
  rw [utf8Size_eq]
  unfold encodeChar
  simp only
  split
  · rfl
  split
  · rfl
  split <;> rfl

theorem utf8Size_pos' (c : Char) : 0 < c.utf8Size := by
  rw [utf8Size_eq]; split; · omega
  split; · omega
  split <;> omega

theorem encode_length (s : Str) : (encode s).length = utf8Len s := by
  unfold encode utf8Len
  rw [List.length_flatMap]
  congr 1
  exact List.map_congr_left (fun c _ => encodeChar_length c)

private theorem bv (n : Nat) (h : n < 256) : (BitVec.ofNat 8 n).toNat = n := by
  rw [BitVec.toNat_ofNat]; omega

theorem nextCodePoint_encode (c : Char) (r : List U8) :
    nextCodePoint (encodeChar c ++ r) = some (c.toNat, c.utf8Size) := by
  have hv := toNat_valid c
  rw [utf8Size_eq]
  unfold encodeChar
  simp only
  generalize c.toNat = n at hv
  split
  · rename_i h
    have := bv n (by omega)
    simp only [List.cons_append, List.nil_append, nextCodePoint, this]
    rw [if_pos h]
  split
  · rename_i h1 h2
    have b1 := bv (0xC0 + n / 64) (by omega)
    have b2 := bv (0x80 + n % 64) (by omega)
    simp only [List.cons_append, List.nil_append, nextCodePoint, b1, b2, List.headD_cons]
    rw [if_neg (by omega), if_pos (by omega)]
    congr 2
    omega
  split
  · rename_i h1 h2 h3
    have b1 := bv (0xE0 + n / 4096) (by omega)
    have b2 := bv (0x80 + n / 64 % 64) (by omega)
    have b3 := bv (0x80 + n % 64) (by omega)
    simp only [List.cons_append, List.nil_append, nextCodePoint, b1, b2, b3, List.headD_cons, List.tail_cons]
    rw [if_neg (by omega), if_neg (by omega), if_pos (by omega)]
    congr 2
    omega
  · rename_i h1 h2 h3
    have b1 := bv (0xF0 + n / 262144) (by omega)
    have b2 := bv (0x80 + n / 4096 % 64) (by omega)
    have b3 := bv (0x80 + n / 64 % 64) (by omega)
    have b4 := bv (0x80 + n % 64) (by omega)
    simp only [List.cons_append, List.nil_append, nextCodePoint, b1, b2, b3, b4, List.headD_cons, List.tail_cons]
    rw [if_neg (by omega), if_neg (by omega), if_neg (by omega)]
    congr 2
    omega

theorem encode_cons (c : Char) (s : Str) : encode (c :: s) = encodeChar c ++ encode s := rfl

theorem encode_append (s t : Str) : encode (s ++ t) = encode s ++ encode t := List.flatMap_append

theorem nextChar_encode (c : Char) (s : Str) : nextChar (encode (c :: s)) = some (c, c.utf8Size) := by
  unfold nextChar
  rw [encode_cons, nextCodePoint_encode]
  simp only [Option.map]
  rw [Char.ofNat_toNat]

theorem drop_encode (c : Char) (s : Str) : (encode (c :: s)).drop c.utf8Size = encode s := by
  rw [encode_cons, ← encodeChar_length, List.drop_left]

theorem take_encode (c : Char) (s : Str) : (encode (c :: s)).take c.utf8Size = encodeChar c := by
  rw [encode_cons, ← encodeChar_length, List.take_left]

theorem encode_eq_nil (s : Str) : encode s = [] ↔ s = [] := by
  cases s with
  | nil => exact ⟨fun _ => rfl, fun _ => rfl⟩
  | cons c s =>
    constructor
    · intro h
      have := congrArg List.length h
      rw [encode_cons, List.length_append, encodeChar_length] at this
      have := utf8Size_pos' c
      simp at *
      omega
    · intro h; cases h

/-- The characters of a text with their byte offsets. -/
def indices : Nat → Str → List (Nat × Char)
  | _, [] => []
  | i, c :: s => (i, c) :: indices (i + c.utf8Size) s

theorem charIndices_encode : ∀ (s : Str) (fuel i : Nat), s.length ≤ fuel →
    charIndices fuel i (encode s) = indices i s
  | [], fuel, i, _ => by cases fuel <;> rfl
  | c :: s, 0, i, h => by simp at h
  | c :: s, fuel + 1, i, h => by
    unfold charIndices
    rw [nextChar_encode]
    simp only
    rw [drop_encode, charIndices_encode s fuel _ (by simpa using h)]
    rfl

theorem length_le_encode : ∀ s : Str, s.length ≤ (encode s).length
  | [] => Nat.le_refl _
  | c :: s => by
    rw [encode_cons, List.length_append, encodeChar_length, List.length_cons]
    have := length_le_encode s
    have := utf8Size_pos' c
    omega

theorem indices_snd : ∀ (s : Str) (i : Nat), (indices i s).map Prod.snd = s
  | [], _ => rfl
  | c :: s, i => by
    show c :: (indices _ s).map Prod.snd = _
    rw [indices_snd]

theorem decode_encode (s : Str) : decode (encode s) = s := by
  unfold decode
  rw [charIndices_encode s _ _ (length_le_encode s), indices_snd]

theorem encode_injective {s t : Str} (h : encode s = encode t) : s = t := by
  rw [← decode_encode s, h, decode_encode]

/-- The first byte of a character is no continuation byte. -/
theorem encodeChar_head (c : Char) : ∃ b r, encodeChar c = b :: r ∧ (b.toNat < 0x80 ∨ 0xC0 ≤ b.toNat) := by
  have hv := toNat_valid c
  unfold encodeChar
  simp only
  generalize c.toNat = n at hv
  split
  · exact ⟨_, _, rfl, .inl (by rw [bv _ (by omega)]; assumption)⟩
  split
  · exact ⟨_, _, rfl, .inr (by rw [bv _ (by omega)]; omega)⟩
  split
  · exact ⟨_, _, rfl, .inr (by rw [bv _ (by omega)]; omega)⟩
  · exact ⟨_, _, rfl, .inr (by rw [bv _ (by omega)]; omega)⟩

theorem boundary (s t : Str) : isCharBoundary (encode s ++ encode t) (encode s).length = true := by
  unfold isCharBoundary
  split
  · rfl
  · rw [List.getElem?_append_right (Nat.le_refl _), Nat.sub_self]
    cases t with
    | nil => simp [encode]
    | cons c t =>
      obtain ⟨b, r, hb, hb'⟩ := encodeChar_head c
      rw [encode_cons, hb]
      show (decide (b.toNat < 128) || decide (192 ≤ b.toNat)) = true
      rw [Bool.or_eq_true, decide_eq_true_iff, decide_eq_true_iff]
      exact hb'

/-- The other bytes of a character are continuation bytes. -/
theorem encodeChar_tail (c : Char) (i : Nat) (b : U8) (hi : 0 < i) (h : (encodeChar c)[i]? = some b) :
    0x80 ≤ b.toNat ∧ b.toNat < 0xC0 := by
  obtain ⟨i, rfl⟩ : ∃ j, i = j + 1 := ⟨i - 1, by omega⟩
  have hm : b ∈ (encodeChar c).tail := by
    rw [← List.getElem?_tail] at h
    exact List.mem_of_getElem? h
  have hb : ∀ n : Nat, n < 64 → 0x80 ≤ (BitVec.ofNat 8 (0x80 + n)).toNat ∧ (BitVec.ofNat 8 (0x80 + n)).toNat < 0xC0 := by
    intro n hn; rw [bv _ (by omega)]; omega
  revert hm
  unfold encodeChar
  simp only
  generalize c.toNat = n
  split
  · intro hm; cases hm
  split
  · intro hm
    rw [List.mem_singleton.1 hm]
    exact hb _ (Nat.mod_lt _ (by decide))
  split
  · intro hm
    simp only [List.tail_cons, List.mem_cons, List.not_mem_nil, or_false] at hm
    rcases hm with rfl | rfl <;> exact hb _ (Nat.mod_lt _ (by decide))
  · intro hm
    simp only [List.tail_cons, List.mem_cons, List.not_mem_nil, or_false] at hm
    rcases hm with rfl | rfl | rfl <;> exact hb _ (Nat.mod_lt _ (by decide))

/-- The boundaries are the places between two characters. -/
theorem boundary_iff : ∀ (s : Str) (i : Nat),
    isCharBoundary (encode s) i = true ↔ ∃ u v, s = u ++ v ∧ i = (encode u).length
  | [], i => by
    constructor
    · intro h
      refine ⟨[], [], rfl, ?_⟩
      unfold isCharBoundary at h
      by_cases h0 : i = 0
      · exact h0
      · rw [if_neg h0] at h
        simpa [encode] using h
    · rintro ⟨u, v, h, rfl⟩
      obtain ⟨rfl, rfl⟩ := List.append_eq_nil_iff.1 h.symm
      rfl
  | c :: s, i => by
    by_cases h0 : i = 0
    · subst h0
      exact ⟨fun _ => ⟨[], c :: s, rfl, rfl⟩, fun _ => rfl⟩
    by_cases hi : i < (encodeChar c).length
    · constructor
      · intro h
        exfalso
        unfold isCharBoundary at h
        rw [if_neg h0, encode_cons, List.getElem?_append_left hi, List.getElem?_eq_getElem hi] at h
        have := encodeChar_tail c i _ (by omega) (List.getElem?_eq_getElem hi)
        simp only [Bool.or_eq_true, decide_eq_true_iff] at h
        omega
      · rintro ⟨u, v, h, rfl⟩
        cases u with
        | nil => exact absurd rfl h0
        | cons d u =>
          injection h with h1 h2
          subst h1
          rw [encode_cons, List.length_append] at hi
          omega
    · have ih := boundary_iff s (i - (encodeChar c).length)
      have hsplit : (∃ u v, c :: s = u ++ v ∧ i = (encode u).length) ↔
          ∃ u v, s = u ++ v ∧ i - (encodeChar c).length = (encode u).length := by
        constructor
        · rintro ⟨u, v, h, rfl⟩
          cases u with
          | nil => exact absurd rfl h0
          | cons d u =>
            injection h with h1 h2
            subst h1
            exact ⟨u, v, h2, by rw [encode_cons, List.length_append]; omega⟩
        · rintro ⟨u, v, rfl, h⟩
          refine ⟨c :: u, v, rfl, ?_⟩
          clear ih
          rw [encode_cons, List.length_append]; omega
      rw [hsplit, ← ih]
      by_cases he : i = (encodeChar c).length
      · have h1 := boundary [c] s
        have e : encode [c] = encodeChar c := by rw [encode_cons]; exact List.append_nil _
        rw [e, ← encode_cons, ← he] at h1
        rw [h1]
        subst he
        simp [isCharBoundary]
      · unfold isCharBoundary
        rw [if_neg h0, if_neg (by omega), encode_cons, List.getElem?_append_right (by omega), List.length_append]
        cases (encode s)[i - (encodeChar c).length]? with
        | some b => rfl
        | none =>
          simp only [beq_iff_eq]
          omega

theorem splitAt_encode (s t : Str) :
    splitAt (ε := ε) (encode s ++ encode t) (encode s).length = .ok (encode s, encode t) := by
  unfold splitAt
  rw [boundary, if_pos rfl, List.take_left, List.drop_left]

theorem splitAt_first (c : Char) (s : Str) :
    splitAt (ε := ε) (encode (c :: s)) c.utf8Size = .ok (encodeChar c, encode s) := by
  have h := splitAt_encode (ε := ε) [c] s
  have e : encode [c] = encodeChar c := by rw [encode_cons]; exact List.append_nil _
  rw [e, encodeChar_length] at h
  exact h

theorem char_encode (c : Char) (s : Str) :
    char (ε := ε) c (encode s) = .ok (match s with | [] => none | d :: s => if d = c then some (encode s) else none) := by
  unfold char
  cases s with
  | nil => rfl
  | cons d s =>
    rw [nextChar_encode]
    simp only
    by_cases h : d = c
    · subst h
      rw [if_pos rfl, if_pos rfl, splitAt_first]
      rfl
    · rw [if_neg h, if_neg h]

theorem sliceIndex_encode (c : Char) (s : Str) : sliceIndex (encode (c :: s)) 1 = some c.utf8Size := by
  unfold sliceIndex
  rw [charIndices_encode _ _ _ (length_le_encode _)]
  show (match sliceIndexLoop 1 0 ((0, c) :: indices (0 + c.utf8Size) s) with | .inl _ => _ | .inr _ => _) = _
  cases s with
  | nil =>
    show (if 1 = 1 then some (encode [c]).length else none) = _
    rw [if_pos rfl, encode_length]
    simp [utf8Len]
  | cons d s =>
    show some (0 + c.utf8Size) = _
    rw [Nat.zero_add]

theorem takeAny_encode (s : Str) : Context.takeAny (encode s)
    = .ok (match s with | [] => none | c :: s => some (encode s, c)) := by
  cases s with
  | nil => rfl
  | cons c s =>
    unfold Context.takeAny take
    rw [sliceIndex_encode]
    simp only
    rw [splitAt_first]
    show (match nextChar (encodeChar c) with | none => _ | some (c, _) => _) = _
    have e : encode [c] = encodeChar c := by rw [encode_cons]; exact List.append_nil _
    rw [← e, nextChar_encode]
    rfl

/-! ## Searching -/

theorem find_indices (f : Char → Bool) : ∀ (s : Str) (i : Nat),
    ((indices i s).find? (fun x => f x.2)).map Prod.fst =
      if s.any f then some (i + (encode (s.takeWhile (fun c => !f c))).length) else none
  | [], i => rfl
  | c :: s, i => by
    unfold indices
    rw [List.find?_cons]
    cases hf : f c with
    | true =>
      simp [hf, encode]
    | false =>
      simp only
      rw [find_indices f s (i + c.utf8Size)]
      have e : ((c :: s).any f) = s.any f := by simp [hf]
      rw [e, List.takeWhile_cons, hf]
      simp only [Bool.not_false, if_true]
      rw [encode_cons, List.length_append, encodeChar_length]
      split
      · congr 1; omega
      · rfl

theorem takeWhile_append_drop (f : Char → Bool) (s : Str) :
    s.takeWhile f ++ s.drop (s.takeWhile f).length = s := by
  have h : s.takeWhile f ++ s.dropWhile f = s := List.takeWhile_append_dropWhile
  have : s.drop (s.takeWhile f).length = s.dropWhile f := by
    conv => lhs; arg 2; rw [← h]
    rw [List.drop_left]
  rw [this, h]

theorem takeWhile_all (f : Char → Bool) : ∀ s : Str, (∀ c ∈ s, f c = true) → s.takeWhile f = s
  | [], _ => rfl
  | c :: s, h => by
    rw [List.takeWhile_cons, if_pos (h c List.mem_cons_self),
      takeWhile_all f s (fun d hd => h d (List.mem_cons_of_mem _ hd))]

theorem isNotClose_encode (s : Str) : isNotClose (encode s) =
    (Rescan.isNotClose s).map (fun x => (encode x.1, encode x.2)) := by
  unfold isNotClose find Rescan.isNotClose
  rw [charIndices_encode _ _ _ (length_le_encode _), find_indices (fun c => c == ')')]
  have hf : (fun c : Char => !(c == ')')) = (fun c => c != ')') := rfl
  rw [hf]
  simp only [Nat.zero_add]
  have hs := takeWhile_append_drop (fun c => c != ')') s
  generalize hp : s.takeWhile (fun c => c != ')') = pre at hs
  by_cases hany : s.any (fun c => c == ')') = true
  · rw [if_pos hany]
    by_cases hpre : pre = []
    · subst hpre
      rfl
    · have hlen : (encode pre).length ≠ 0 := fun h =>
        hpre ((encode_eq_nil pre).1 (List.eq_nil_of_length_eq_zero h))
      have hne : pre.isEmpty = false := by cases pre with | nil => exact absurd rfl hpre | cons _ _ => rfl
      rw [hne]
      have henc : encode s = encode pre ++ encode (s.drop pre.length) := by rw [← encode_append, hs]
      cases hl : (encode pre).length with
      | zero => exact absurd hl hlen
      | succ k =>
        simp only [Option.map]
        rw [← hl, henc, List.drop_left, List.take_left]
        rfl
  · rw [if_neg hany]
    have hall : pre = s := by
      rw [← hp]
      apply takeWhile_all
      intro c hc
      simp only [List.any_eq_true, not_exists, not_and] at hany
      have := hany c hc
      simpa using this
    subst hall
    simp only
    cases pre with
    | nil => rfl
    | cons c r =>
      have : (encode (c :: r)).isEmpty = false := by
        cases h : encode (c :: r) with
        | nil => rw [encode_eq_nil] at h; cases h
        | cons _ _ => rfl
      rw [this]
      simp [encode]

theorem encode_prefix : ∀ (a s : Str), (encode a).isPrefixOf (encode s) = a.isPrefixOf s
  | [], s => by cases s <;> rfl
  | c :: a, s => by
    rw [Bool.eq_iff_iff, List.isPrefixOf_iff_prefix, List.isPrefixOf_iff_prefix]
    constructor
    · rintro ⟨t, ht⟩
      cases s with
      | nil =>
        have := congrArg List.length ht
        rw [encode_cons] at this
        simp only [List.length_append, encodeChar_length] at this
        have := utf8Size_pos' c
        simp [encode] at *
        omega
      | cons d s =>
        have h1 : nextCodePoint (encodeChar c ++ (encode a ++ t)) = some (c.toNat, c.utf8Size) :=
          nextCodePoint_encode c _
        rw [← List.append_assoc, ← encode_cons, ht, encode_cons, nextCodePoint_encode] at h1
        injection h1 with h1; injection h1 with h1 _
        have hcd : d = c := by rw [← Char.ofNat_toNat d, h1, Char.ofNat_toNat]
        subst hcd
        rw [encode_cons, encode_cons, List.append_assoc] at ht
        have ht := List.append_cancel_left ht
        have := encode_prefix a s
        rw [Bool.eq_iff_iff, List.isPrefixOf_iff_prefix, List.isPrefixOf_iff_prefix] at this
        obtain ⟨u, hu⟩ := this.1 ⟨t, ht⟩
        exact ⟨u, by rw [← hu]; rfl⟩
    · rintro ⟨u, rfl⟩
      exact ⟨encode u, by rw [encode_append]⟩

theorem tag_prefix (t i : Bytes) :
    ((i.zip t).any (fun x => x.1 != x.2) = false ∧ ¬ i.length < t.length) ↔ t <+: i := by
  induction t generalizing i with
  | nil => simp
  | cons b t ih =>
    cases i with
    | nil => simp
    | cons a i =>
      have := ih i
      simp only [List.zip_cons_cons, List.any_cons, Bool.or_eq_false_iff, List.length_cons, List.cons_prefix_cons]
      rw [← this]
      constructor
      · rintro ⟨⟨h1, h2⟩, h3⟩
        exact ⟨by simpa using (show a = b by simpa using h1).symm, h2, by omega⟩
      · rintro ⟨h1, h2, h3⟩
        exact ⟨⟨by simp [h1], h2⟩, by omega⟩

theorem tag_encode (t s : Str) : tag (ε := ε) (encode t) (encode s)
    = .ok (if t.isPrefixOf s then some (encode (s.drop t.length), encode t) else none) := by
  have hp := tag_prefix (encode t) (encode s)
  unfold tag
  by_cases h : t.isPrefixOf s = true
  · have h' : encode t <+: encode s := by
      rw [← List.isPrefixOf_iff_prefix, encode_prefix]; exact h
    obtain ⟨h1, h2⟩ := hp.2 h'
    rw [h1, if_neg (by decide), if_neg h2, if_pos h]
    obtain ⟨u, rfl⟩ := List.isPrefixOf_iff_prefix.1 h
    rw [encode_append, splitAt_encode, List.drop_left]
    rfl
  · rw [if_neg h]
    have h' : ¬ encode t <+: encode s := by
      rw [← List.isPrefixOf_iff_prefix, encode_prefix]; exact h
    split
    · rfl
    · split
      · rfl
      · rename_i h1 h2
        exact absurd (hp.1 ⟨by simpa using h1, h2⟩) h'

end Rescan.Bytes
