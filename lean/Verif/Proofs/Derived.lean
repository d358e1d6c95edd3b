import Verif.Model.Derived
/-! # Reading derived `Debug` texts back -/
namespace Rescan.Derived

/-! ## Digits -/

/-- The value of a hexadecimal digit. -/
def digitVal (c : Char) : Nat := if c.toNat < 58 then c.toNat - 48 else c.toNat - 87

theorem digitVal_hexDigit : ∀ n, n < 16 → digitVal (Dump.hexDigit n) = n := by decide +kernel

/-- The value of digits in base `b + 2`. -/
def ofDigits (b : Nat) (s : Str) : Nat := s.foldl (fun a c => a * (b + 2) + digitVal c) 0

theorem ofDigits_digits (b : Nat) (hb : b ≤ 14) (n : Nat) : ofDigits b (digits b n) = n := by
  induction n using digits.induct b with
  | case1 n h =>
    rw [digits, if_pos h]
    simp only [ofDigits, List.foldl_cons, List.foldl_nil]
    rw [digitVal_hexDigit n (by omega)]; omega
  | case2 n h ih =>
    rw [digits, if_neg h]
    unfold ofDigits at ih ⊢
    rw [List.foldl_append, ih]
    simp only [List.foldl_cons, List.foldl_nil]
    rw [digitVal_hexDigit _ (by have := Nat.mod_lt n (show b + 2 > 0 by omega); omega)]
    have := Nat.div_add_mod n (b + 2)
    rw [Nat.mul_comm]; exact this

theorem digits_inj {b : Nat} (hb : b ≤ 14) {m n : Nat} (h : digits b m = digits b n) : m = n := by
  rw [← ofDigits_digits b hb m, h, ofDigits_digits b hb n]

/-- Characters of names and numbers. -/
def Plain (c : Char) : Prop := c.isAlphanum = true ∨ c = '_'

instance (c : Char) : Decidable (Plain c) := inferInstanceAs (Decidable (_ ∨ _))

theorem plain_hexDigit : ∀ n, n < 16 → Plain (Dump.hexDigit n) := by decide +kernel

theorem plain_digits (b : Nat) (hb : b ≤ 14) (n : Nat) : ∀ c ∈ digits b n, Plain c := by
  induction n using digits.induct b with
  | case1 n h =>
    rw [digits, if_pos h]
    intro c hc
    rw [List.mem_singleton] at hc
    rw [hc]; exact plain_hexDigit n (by omega)
  | case2 n h ih =>
    rw [digits, if_neg h]
    intro c hc
    rcases List.mem_append.mp hc with hc | hc
    · exact ih c hc
    · rw [List.mem_singleton] at hc
      rw [hc]; exact plain_hexDigit _ (by have := Nat.mod_lt n (show b + 2 > 0 by omega); omega)

theorem digits_ne_nil (b n : Nat) : digits b n ≠ [] := by
  rw [digits]; split <;> simp

/-! ## Splitting texts -/

/-- The first character, if any, does not satisfy `P`. -/
def StopsAt (P : Char → Prop) (r : Str) : Prop := ∀ c s, r = c :: s → ¬ P c

theorem split_at {P : Char → Prop} : ∀ {a b x y : Str}, (∀ c ∈ a, P c) → (∀ c ∈ b, P c) → StopsAt P x → StopsAt P y →
    a ++ x = b ++ y → a = b ∧ x = y
  | [], [], _, _, _, _, _, _, h => ⟨rfl, h⟩
  | [], d :: b, x, y, _, hb, hx, _, h => by
    exact absurd (hb d (by simp)) (hx d (b ++ y) h)
  | c :: a, [], x, y, ha, _, _, hy, h => by
    exact absurd (ha c (by simp)) (hy c (a ++ x) h.symm)
  | c :: a, d :: b, x, y, ha, hb, hx, hy, h => by
    injection h with h1 h2
    obtain ⟨h3, h4⟩ := split_at (fun c hc => ha c (by simp [hc])) (fun c hc => hb c (by simp [hc])) hx hy h2
    exact ⟨by rw [h1, h3], h4⟩

theorem stopsAt_cons {P : Char → Prop} {c : Char} {s : Str} (h : ¬ P c) : StopsAt P (c :: s) := by
  intro d s' he; injection he with h1 _; rw [← h1]; exact h

theorem stopsAt_nil {P : Char → Prop} : StopsAt P [] := by intro _ _ h; cases h

/-! ## Escapes -/

/-- The escapes of two characters. -/
def shortEscape : Char → Option Char
  | '\x00' => some '0'
  | '\t' => some 't'
  | '\r' => some 'r'
  | '\n' => some 'n'
  | '\\' => some '\\'
  | '"' => some '"'
  | _ => none

theorem shortEscape_inj {c d k : Char} (hc : shortEscape c = some k) (hd : shortEscape d = some k) : c = d := by
  unfold shortEscape at hc hd
  split at hc <;> split at hd <;> simp_all (config := { decide := true })
  all_goals (subst hc; simp at hd)

theorem shortEscape_ne_u {c k : Char} (h : shortEscape c = some k) : k ≠ 'u' := by
  unfold shortEscape at h
  split at h <;> first | (injection h with h; subst h; decide) | cases h

/-- The three forms of an escaped character. -/
theorem escapeChar_cases (t : Tables) (c : Char) :
    (escapeChar t c = [c] ∧ c ≠ '\\' ∧ c ≠ '"' ∧ c ≠ '\n') ∨
    (∃ k, escapeChar t c = ['\\', k] ∧ shortEscape c = some k) ∨ escapeChar t c = escapeUnicode c := by
  unfold escapeChar
  split
  · rename_i h
    split
    · exact Or.inr (Or.inl ⟨'0', rfl, by rw [h]; rfl⟩)
    · exact Or.inr (Or.inr rfl)
  · split
    · rename_i h; exact Or.inr (Or.inl ⟨_, rfl, by rw [h]; rfl⟩)
    · split
      · rename_i h; exact Or.inr (Or.inl ⟨_, rfl, by rw [h]; rfl⟩)
      · split
        · rename_i h; exact Or.inr (Or.inl ⟨_, rfl, by rw [h]; rfl⟩)
        · split
          · rename_i h; exact Or.inr (Or.inl ⟨_, rfl, by rw [h]; rfl⟩)
          · split
            · rename_i h; exact Or.inr (Or.inl ⟨_, rfl, by rw [h]; rfl⟩)
            · split
              · exact Or.inr (Or.inr rfl)
              · split
                · rename_i h1 h2 h3 h4 _ _; exact Or.inl ⟨rfl, h3, h4, h2⟩
                · exact Or.inr (Or.inr rfl)

theorem not_plain_brace : ¬ Plain '}' := by decide

theorem escapeUnicode_inj {c d : Char} {x y : Str} (h : escapeUnicode c ++ x = escapeUnicode d ++ y) : c = d ∧ x = y := by
  unfold escapeUnicode at h
  simp only [List.append_assoc, List.cons_append, List.nil_append, List.cons.injEq, true_and] at h
  obtain ⟨h1, h2⟩ := split_at (plain_digits 14 (by omega) _) (plain_digits 14 (by omega) _)
    (stopsAt_cons not_plain_brace) (stopsAt_cons not_plain_brace) h
  refine ⟨?_, by injection h2⟩
  have := digits_inj (by omega) h1
  exact Char.ext (UInt32.toNat.inj this)

theorem escapeChar_inj (t : Tables) {c d : Char} {x y : Str} (h : escapeChar t c ++ x = escapeChar t d ++ y) :
    c = d ∧ x = y := by
  rcases escapeChar_cases t c with ⟨hc, hc1, _⟩ | ⟨k, hc, hk⟩ | hc <;>
    rcases escapeChar_cases t d with ⟨hd, hd1, _⟩ | ⟨l, hd, hl⟩ | hd <;> rw [hc, hd] at h
  · simpa using h
  · injection h with h _; exact absurd h hc1
  · injection h with h _; exact absurd h hc1
  · injection h with h _; exact absurd h.symm hd1
  · simp only [List.cons_append, List.nil_append, List.cons.injEq, true_and] at h
    exact ⟨shortEscape_inj hk (h.1 ▸ hl), h.2⟩
  · simp only [escapeUnicode, List.cons_append, List.nil_append, List.cons.injEq, true_and] at h
    exact absurd h.1 (shortEscape_ne_u hk)
  · injection h with h _; exact absurd h.symm hd1
  · simp only [escapeUnicode, List.cons_append, List.nil_append, List.cons.injEq, true_and] at h
    exact absurd h.1.symm (shortEscape_ne_u hl)
  · exact escapeUnicode_inj h

theorem escapeChar_ne_quote (t : Tables) (c : Char) (x y : Str) : escapeChar t c ++ x ≠ '"' :: y := by
  intro h
  rcases escapeChar_cases t c with ⟨hc, _, hc1, _⟩ | ⟨k, hc, _⟩ | hc <;> rw [hc] at h
  · injection h with h _; exact hc1 h
  · injection h with h _; exact absurd h (by decide)
  · injection h with h _; exact absurd h (by decide)

theorem escape_inj (t : Tables) : ∀ {a b x y : Str}, a.flatMap (escapeChar t) ++ '"' :: x = b.flatMap (escapeChar t) ++ '"' :: y →
    a = b ∧ x = y
  | [], [], _, _, h => by simpa using h
  | [], d :: b, _, _, h => by
    rw [List.flatMap_cons, List.append_assoc] at h
    exact absurd h.symm (escapeChar_ne_quote t d _ _)
  | c :: a, [], _, _, h => by
    rw [List.flatMap_cons, List.append_assoc] at h
    exact absurd h (escapeChar_ne_quote t c _ _)
  | c :: a, d :: b, x, y, h => by
    rw [List.flatMap_cons, List.append_assoc, List.flatMap_cons, List.append_assoc] at h
    obtain ⟨h1, h2⟩ := escapeChar_inj t h
    obtain ⟨h3, h4⟩ := escape_inj t h2
    exact ⟨by rw [h1, h3], h4⟩

theorem escapeChar_no_newline (t : Tables) (c : Char) : ∀ d ∈ escapeChar t c, d ≠ '\n' := by
  intro d hd
  rcases escapeChar_cases t c with ⟨hc, _, _, hc1⟩ | ⟨k, hc, hk⟩ | hc <;> rw [hc] at hd
  · rw [List.mem_singleton] at hd; rw [hd]; exact hc1
  · simp only [List.mem_cons, List.not_mem_nil, or_false] at hd
    rcases hd with rfl | rfl
    · decide
    · intro h; subst h
      unfold shortEscape at hk; split at hk <;> simp at hk
  · simp only [escapeUnicode, List.cons_append, List.nil_append, List.mem_cons, List.mem_append, List.not_mem_nil,
      or_false] at hd
    rcases hd with rfl | rfl | rfl | hd | rfl
    · decide
    · decide
    · decide
    · intro h; subst h
      exact absurd (plain_digits 14 (by omega) _ _ hd) (by decide)
    · decide

/-! ## Values as the derive macro makes them -/

/-- A name or number. -/
def IsWord (s : Str) : Prop := s ≠ [] ∧ ∀ c ∈ s, Plain c

mutual
/-- Names are names, and structs and tuples have fields. -/
def Ok : Val → Prop
  | .word s => IsWord s
  | .str _ => True
  | .struct n fs => IsWord n ∧ fs ≠ [] ∧ OkFields fs
  | .tuple n vs => IsWord n ∧ vs ≠ [] ∧ OkVals vs
  | .list vs => OkVals vs
def OkFields : List (Str × Val) → Prop
  | [] => True
  | (n, v) :: fs => IsWord n ∧ Ok v ∧ OkFields fs
def OkVals : List Val → Prop
  | [] => True
  | v :: vs => Ok v ∧ OkVals vs
end

/-! ## Both texts, without white space at the start of lines -/

/-- What stands between an item and what follows it. -/
def sep (alt last : Bool) : Str := if alt then [','] else if last then [] else [',', ' ']

mutual
def flat (t : Tables) (alt : Bool) : Val → Str
  | .word s => s
  | .str s => '"' :: (s.flatMap (escapeChar t) ++ ['"'])
  | .struct n fs => n ++ ' ' :: '{' :: ((if alt then [] else [' ']) ++ flatFields t alt fs)
  | .tuple n vs => n ++ '(' :: flatVals t alt ')' vs
  | .list vs => '[' :: flatVals t alt ']' vs
def flatFields (t : Tables) (alt : Bool) : List (Str × Val) → Str
  | [] => if alt then ['}'] else [' ', '}']
  | (n, v) :: fs => n ++ ':' :: ' ' :: (flat t alt v ++ (sep alt fs.isEmpty ++ flatFields t alt fs))
def flatVals (t : Tables) (alt : Bool) (close : Char) : List Val → Str
  | [] => [close]
  | v :: vs => flat t alt v ++ (sep alt vs.isEmpty ++ flatVals t alt close vs)
end

/-- What can follow a value. -/
def Follow (r : Str) : Prop :=
  r = [] ∨ (∃ s, r = ',' :: s) ∨ (∃ s, r = ' ' :: '}' :: s) ∨ (∃ s, r = ')' :: s) ∨ (∃ s, r = ']' :: s)

theorem Follow.stops {r : Str} (h : Follow r) : StopsAt Plain r := by
  rcases h with rfl | ⟨s, rfl⟩ | ⟨s, rfl⟩ | ⟨s, rfl⟩ | ⟨s, rfl⟩
  · exact stopsAt_nil
  all_goals exact stopsAt_cons (by decide)

theorem Follow.not_struct {r s : Str} (h : Follow r) : r ≠ ' ' :: '{' :: s := by
  intro hr; subst hr
  rcases h with h | ⟨s, h⟩ | ⟨s, h⟩ | ⟨s, h⟩ | ⟨s, h⟩ <;> simp at h

theorem Follow.not_tuple {r s : Str} (h : Follow r) : r ≠ '(' :: s := by
  intro hr; subst hr
  rcases h with h | ⟨s, h⟩ | ⟨s, h⟩ | ⟨s, h⟩ | ⟨s, h⟩ <;> simp at h

theorem IsWord.head {s x : Str} (h : IsWord s) : ∃ c y, s ++ x = c :: y ∧ Plain c := by
  obtain ⟨h1, h2⟩ := h
  cases s with
  | nil => exact absurd rfl h1
  | cons c s => exact ⟨c, s ++ x, rfl, h2 c (by simp)⟩

/-- A value starts with a name, a quotation mark or a bracket. -/
theorem flat_head (t : Tables) (alt : Bool) {v : Val} (h : Ok v) (r : Str) :
    ∃ c y, flat t alt v ++ r = c :: y ∧ (Plain c ∨ c = '"' ∨ c = '[') := by
  cases v with
  | word s =>
    rw [Ok] at h
    obtain ⟨c, y, h1, h2⟩ := h.head (x := r)
    exact ⟨c, y, by rw [flat]; exact h1, Or.inl h2⟩
  | str s => exact ⟨'"', _, by rw [flat]; rfl, Or.inr (Or.inl rfl)⟩
  | struct n fs =>
    rw [Ok] at h
    obtain ⟨c, y, h1, h2⟩ := h.1.head
    refine ⟨c, y, ?_, Or.inl h2⟩
    rw [flat, List.append_assoc]; exact h1
  | tuple n vs =>
    rw [Ok] at h
    obtain ⟨c, y, h1, h2⟩ := h.1.head
    refine ⟨c, y, ?_, Or.inl h2⟩
    rw [flat, List.append_assoc]; exact h1
  | list vs => exact ⟨'[', _, by rw [flat]; rfl, Or.inr (Or.inr rfl)⟩

theorem word_ne {s x y : Str} {c : Char} (h : IsWord s) (hc : ¬ Plain c) : s ++ x ≠ c :: y := by
  obtain ⟨d, z, h1, h2⟩ := h.head (x := x)
  rw [h1]; intro he; injection he with he _; exact hc (he ▸ h2)

mutual
theorem flat_inj (t : Tables) (alt : Bool) : ∀ (v : Val), Ok v → ∀ v', Ok v' → ∀ r r', Follow r → Follow r' →
    flat t alt v ++ r = flat t alt v' ++ r' → v = v' ∧ r = r'
  | .word s, hv, v', hv', r, r', hr, hr', h => by
    rw [Ok] at hv
    cases v' with
    | word s' =>
      rw [Ok] at hv'; rw [flat, flat] at h
      obtain ⟨h1, h2⟩ := split_at hv.2 hv'.2 hr.stops hr'.stops h
      exact ⟨by rw [h1], h2⟩
    | str s' => rw [flat, flat] at h; exact absurd h (word_ne hv (by decide))
    | struct n fs =>
      rw [Ok] at hv'; rw [flat, flat, List.append_assoc] at h
      obtain ⟨_, h2⟩ := split_at hv.2 hv'.1.2 hr.stops (stopsAt_cons (by decide)) h
      exact absurd h2 hr.not_struct
    | tuple n vs =>
      rw [Ok] at hv'; rw [flat, flat, List.append_assoc] at h
      obtain ⟨_, h2⟩ := split_at hv.2 hv'.1.2 hr.stops (stopsAt_cons (by decide)) h
      exact absurd h2 hr.not_tuple
    | list vs => rw [flat, flat] at h; exact absurd h (word_ne hv (by decide))
  | .str s, hv, v', hv', r, r', hr, hr', h => by
    cases v' with
    | word s' => rw [Ok] at hv'; rw [flat, flat] at h; exact absurd h.symm (word_ne hv' (by decide))
    | str s' =>
      rw [flat, flat] at h
      simp only [List.cons_append, List.append_assoc, List.nil_append, List.cons.injEq, true_and] at h
      obtain ⟨h1, h2⟩ := escape_inj t h
      exact ⟨by rw [h1], h2⟩
    | struct n fs =>
      rw [Ok] at hv'; rw [flat, flat, List.append_assoc] at h
      exact absurd h.symm (word_ne hv'.1 (by decide))
    | tuple n vs =>
      rw [Ok] at hv'; rw [flat, flat, List.append_assoc] at h
      exact absurd h.symm (word_ne hv'.1 (by decide))
    | list vs => rw [flat, flat] at h; injection h with h _; exact absurd h (by decide)
  | .struct n fs, hv, v', hv', r, r', hr, hr', h => by
    rw [Ok] at hv
    cases v' with
    | word s' =>
      rw [Ok] at hv'; rw [flat, flat, List.append_assoc] at h
      obtain ⟨_, h2⟩ := split_at hv.1.2 hv'.2 (stopsAt_cons (by decide)) hr'.stops h
      exact absurd h2.symm hr'.not_struct
    | str s' =>
      rw [flat, flat, List.append_assoc] at h; exact absurd h (word_ne hv.1 (by decide))
    | struct n' fs' =>
      rw [Ok] at hv'; rw [flat, flat] at h
      simp only [List.cons_append, List.append_assoc] at h
      obtain ⟨h1, h2⟩ := split_at hv.1.2 hv'.1.2 (stopsAt_cons (by decide)) (stopsAt_cons (by decide)) h
      simp only [List.cons.injEq, true_and, List.append_cancel_left_eq] at h2
      obtain ⟨h3, h4⟩ := flatFields_inj t alt fs hv.2.2 fs' hv'.2.2 r r' h2
      exact ⟨by rw [h1, h3], h4⟩
    | tuple n' vs' =>
      rw [Ok] at hv'; rw [flat, flat, List.append_assoc, List.append_assoc] at h
      obtain ⟨_, h2⟩ := split_at hv.1.2 hv'.1.2 (stopsAt_cons (by decide)) (stopsAt_cons (by decide)) h
      injection h2 with h2 _; exact absurd h2 (by decide)
    | list vs =>
      rw [flat, flat, List.append_assoc] at h; exact absurd h (word_ne hv.1 (by decide))
  | .tuple n vs, hv, v', hv', r, r', hr, hr', h => by
    rw [Ok] at hv
    cases v' with
    | word s' =>
      rw [Ok] at hv'; rw [flat, flat, List.append_assoc] at h
      obtain ⟨_, h2⟩ := split_at hv.1.2 hv'.2 (stopsAt_cons (by decide)) hr'.stops h
      exact absurd h2.symm hr'.not_tuple
    | str s' =>
      rw [flat, flat, List.append_assoc] at h; exact absurd h (word_ne hv.1 (by decide))
    | struct n' fs' =>
      rw [Ok] at hv'; rw [flat, flat, List.append_assoc, List.append_assoc] at h
      obtain ⟨_, h2⟩ := split_at hv.1.2 hv'.1.2 (stopsAt_cons (by decide)) (stopsAt_cons (by decide)) h
      injection h2 with h2 _; exact absurd h2 (by decide)
    | tuple n' vs' =>
      rw [Ok] at hv'; rw [flat, flat, List.append_assoc, List.append_assoc] at h
      obtain ⟨h1, h2⟩ := split_at hv.1.2 hv'.1.2 (stopsAt_cons (by decide)) (stopsAt_cons (by decide)) h
      simp only [List.cons_append, List.cons.injEq, true_and] at h2
      obtain ⟨h3, h4⟩ := flatVals_inj t alt ')' (Or.inl rfl) vs hv.2.2 vs' hv'.2.2 r r' h2
      exact ⟨by rw [h1, h3], h4⟩
    | list vs' =>
      rw [flat, flat, List.append_assoc] at h; exact absurd h (word_ne hv.1 (by decide))
  | .list vs, hv, v', hv', r, r', hr, hr', h => by
    rw [Ok] at hv
    cases v' with
    | word s' => rw [Ok] at hv'; rw [flat, flat] at h; exact absurd h.symm (word_ne hv' (by decide))
    | str s' => rw [flat, flat] at h; injection h with h _; exact absurd h (by decide)
    | struct n fs =>
      rw [Ok] at hv'; rw [flat, flat, List.append_assoc] at h
      exact absurd h.symm (word_ne hv'.1 (by decide))
    | tuple n vs' =>
      rw [Ok] at hv'; rw [flat, flat, List.append_assoc] at h
      exact absurd h.symm (word_ne hv'.1 (by decide))
    | list vs' =>
      rw [Ok] at hv'; rw [flat, flat] at h
      simp only [List.cons_append, List.cons.injEq, true_and] at h
      obtain ⟨h3, h4⟩ := flatVals_inj t alt ']' (Or.inr rfl) vs hv vs' hv' r r' h
      exact ⟨by rw [h3], h4⟩
theorem flatFields_inj (t : Tables) (alt : Bool) : ∀ (fs : List (Str × Val)), OkFields fs → ∀ fs', OkFields fs' → ∀ r r',
    flatFields t alt fs ++ r = flatFields t alt fs' ++ r' → fs = fs' ∧ r = r'
  | [], _, [], _, r, r', h => ⟨rfl, List.append_cancel_left h⟩
  | [], _, (n', v') :: fs', h', r, r', h => by
    rw [OkFields] at h'
    rw [flatFields, flatFields, List.append_assoc] at h
    cases alt
    · exact absurd h.symm (word_ne h'.1 (by decide))
    · exact absurd h.symm (word_ne h'.1 (by decide))
  | (n, v) :: fs, h0, [], _, r, r', h => by
    rw [OkFields] at h0
    rw [flatFields, flatFields, List.append_assoc] at h
    cases alt
    · exact absurd h (word_ne h0.1 (by decide))
    · exact absurd h (word_ne h0.1 (by decide))
  | (n, v) :: fs, h0, (n', v') :: fs', h', r, r', h => by
    rw [OkFields] at h0 h'
    rw [flatFields, flatFields] at h
    simp only [List.cons_append, List.append_assoc] at h
    obtain ⟨h1, h2⟩ := split_at h0.1.2 h'.1.2 (stopsAt_cons (by decide)) (stopsAt_cons (by decide)) h
    simp only [List.cons.injEq, true_and] at h2
    have fol : ∀ (gs : List (Str × Val)) (x : Str), Follow (sep alt gs.isEmpty ++ (flatFields t alt gs ++ x)) := by
      intro gs x
      cases alt
      · cases gs
        · exact Or.inr (Or.inr (Or.inl ⟨x, rfl⟩))
        · exact Or.inr (Or.inl ⟨_, rfl⟩)
      · exact Or.inr (Or.inl ⟨_, rfl⟩)
    obtain ⟨h3, h4⟩ := flat_inj t alt v h0.2.1 v' h'.2.1 _ _ (fol fs r) (fol fs' r') h2
    have h5 : flatFields t alt fs ++ r = flatFields t alt fs' ++ r' := by
      cases alt
      · cases fs <;> cases fs'
        · exact h4
        · injection h4 with h4 _; exact absurd h4 (by decide)
        · injection h4 with h4 _; exact absurd h4 (by decide)
        · exact List.append_cancel_left h4
      · exact List.append_cancel_left h4
    obtain ⟨h6, h7⟩ := flatFields_inj t alt fs h0.2.2 fs' h'.2.2 r r' h5
    exact ⟨by rw [h1, h3, h6], h7⟩
theorem flatVals_inj (t : Tables) (alt : Bool) (close : Char) (hcl : close = ')' ∨ close = ']') : ∀ (vs : List Val), OkVals vs →
    ∀ vs', OkVals vs' → ∀ r r', flatVals t alt close vs ++ r = flatVals t alt close vs' ++ r' → vs = vs' ∧ r = r'
  | [], _, [], _, r, r', h => ⟨rfl, List.append_cancel_left h⟩
  | [], _, v' :: vs', h', r, r', h => by
    rw [OkVals] at h'
    rw [flatVals, flatVals, List.append_assoc] at h
    obtain ⟨c, y, h1, h2⟩ := flat_head t alt h'.1 (sep alt vs'.isEmpty ++ flatVals t alt close vs' ++ r')
    rw [h1] at h
    injection h with h _
    subst h
    rcases hcl with rfl | rfl <;> exact absurd h2 (by decide)
  | v :: vs, h0, [], _, r, r', h => by
    rw [OkVals] at h0
    rw [flatVals, flatVals, List.append_assoc] at h
    obtain ⟨c, y, h1, h2⟩ := flat_head t alt h0.1 (sep alt vs.isEmpty ++ flatVals t alt close vs ++ r)
    rw [h1] at h
    injection h with h _
    subst h
    rcases hcl with rfl | rfl <;> exact absurd h2 (by decide)
  | v :: vs, h0, v' :: vs', h', r, r', h => by
    rw [OkVals] at h0 h'
    rw [flatVals, flatVals, List.append_assoc, List.append_assoc, List.append_assoc, List.append_assoc] at h
    have fol : ∀ (gs : List Val) (x : Str), Follow (sep alt gs.isEmpty ++ (flatVals t alt close gs ++ x)) := by
      intro gs x
      cases alt
      · cases gs
        · rcases hcl with rfl | rfl
          · exact Or.inr (Or.inr (Or.inr (Or.inl ⟨x, rfl⟩)))
          · exact Or.inr (Or.inr (Or.inr (Or.inr ⟨x, rfl⟩)))
        · exact Or.inr (Or.inl ⟨_, rfl⟩)
      · exact Or.inr (Or.inl ⟨_, rfl⟩)
    obtain ⟨h3, h4⟩ := flat_inj t alt v h0.1 v' h'.1 _ _ (fol vs r) (fol vs' r') h
    have h5 : flatVals t alt close vs ++ r = flatVals t alt close vs' ++ r' := by
      cases alt
      · cases vs <;> cases vs'
        · exact h4
        · rcases hcl with rfl | rfl <;> (injection h4 with h4 _; exact absurd h4 (by decide))
        · rcases hcl with rfl | rfl <;> (injection h4 with h4 _; exact absurd h4 (by decide))
        · exact List.append_cancel_left h4
      · exact List.append_cancel_left h4
    obtain ⟨h6, h7⟩ := flatVals_inj t alt close hcl vs h0.2 vs' h'.2 r r' h5
    exact ⟨by rw [h3, h6], h7⟩
end

/-! ## `{:?}` is the flat text -/

mutual
theorem text_compact (t : Tables) : ∀ (v : Val), Ok v → text t false v = flat t false v
  | .word s, _ => by rw [text, flat]
  | .str s, _ => by rw [text, flat]; rfl
  | .struct n fs, h => by
    rw [Ok] at h
    rw [flat, ← textFields_compact t fs h.2.1 h.2.2]
    cases fs with
    | nil => exact absurd rfl h.2.1
    | cons f fs => rw [text]; simp
  | .tuple n vs, h => by
    rw [Ok] at h
    rw [flat, ← textVals_compact t ')' vs h.2.1 h.2.2]
    cases vs with
    | nil => exact absurd rfl h.2.1
    | cons f fs => rw [text]; simp
  | .list vs, h => by
    rw [Ok] at h
    rw [flat]
    cases vs with
    | nil => rw [text, flatVals]; rfl
    | cons f fs => rw [← textVals_compact t ']' (f :: fs) (by simp) h, text]; simp
theorem textFields_compact (t : Tables) : ∀ (fs : List (Str × Val)), fs ≠ [] → OkFields fs →
    textFields t false fs ++ [' ', '}'] = flatFields t false fs
  | [], h, _ => absurd rfl h
  | (n, v) :: [], _, h => by
    rw [OkFields] at h
    rw [textFields, flatFields, flatFields, text_compact t v h.2.1]
    simp [sep]
  | (n, v) :: f :: fs, _, h => by
    rw [OkFields] at h
    rw [textFields, flatFields, text_compact t v h.2.1, ← textFields_compact t (f :: fs) (by simp) h.2.2]
    simp [sep]
theorem textVals_compact (t : Tables) (close : Char) : ∀ (vs : List Val), vs ≠ [] → OkVals vs →
    textVals t false vs ++ [close] = flatVals t false close vs
  | [], h, _ => absurd rfl h
  | v :: [], _, h => by
    rw [OkVals] at h
    rw [textVals, flatVals, flatVals, text_compact t v h.1]
    simp [sep]
  | v :: f :: fs, _, h => by
    rw [OkVals] at h
    rw [textVals, flatVals, text_compact t v h.1, ← textVals_compact t close (f :: fs) (by simp) h.2]
    simp [sep]
end

/-! ## `{:#?}` without line breaks and the white space after them is the flat text -/

/-- Drops line breaks and the spaces after them. -/
def squash : Bool → Str → Str
  | _, [] => []
  | nl, c :: cs =>
    if c = '\n' then squash true cs
    else if nl = true ∧ c = ' ' then squash true cs
    else c :: squash false cs

/-- Is the end of the text preceded by a line break and spaces only? -/
def after : Bool → Str → Bool
  | nl, [] => nl
  | nl, c :: cs => if c = '\n' then after true cs else if nl = true ∧ c = ' ' then after true cs else after false cs

theorem squash_append : ∀ (nl : Bool) (a b : Str), squash nl (a ++ b) = squash nl a ++ squash (after nl a) b
  | nl, [], b => rfl
  | nl, c :: a, b => by
    rw [List.cons_append, squash, squash, after]
    split
    · exact squash_append true a b
    · split
      · exact squash_append true a b
      · rw [squash_append false a b]; rfl

theorem squash_pad : ∀ (nl q : Bool) (s : Str), (nl = true → q = true) → squash q (pad nl s) = squash q s ∧ after q (pad nl s) = after q s
  | nl, q, [], _ => by simp [pad]
  | nl, q, c :: cs, h => by
    have tail : squash q (c :: pad (c == '\n') cs) = squash q (c :: cs) ∧
        after q (c :: pad (c == '\n') cs) = after q (c :: cs) := by
      rw [squash, squash, after, after]
      split
      · rename_i hc
        exact squash_pad _ true cs (fun _ => rfl)
      · rename_i hc
        have hb : (c == '\n') = false := by simp [hc]
        rw [hb]
        split
        · exact squash_pad false true cs (fun _ => rfl)
        · have := squash_pad false false cs (fun h => h)
          exact ⟨by rw [this.1], this.2⟩
    cases nl
    · exact tail
    · rw [h rfl] at tail ⊢
      simpa [pad, squash, after] using tail

/-- A text without line breaks that does not start with a space. -/
def Solid (a : Str) : Prop := (∃ c s, a = c :: s ∧ c ≠ ' ') ∧ ∀ c ∈ a, c ≠ '\n'

theorem squash_line : ∀ (a : Str), (∀ c ∈ a, c ≠ '\n') → squash false a = a ∧ after false a = false
  | [], _ => ⟨rfl, rfl⟩
  | c :: a, h => by
    have := squash_line a (fun d hd => h d (by simp [hd]))
    have hc := h c (by simp)
    rw [squash, after, if_neg hc, if_neg hc]
    simp [this]

theorem squash_solid {a : Str} (h : Solid a) (nl : Bool) : squash nl a = a ∧ after nl a = false := by
  obtain ⟨⟨c, s, rfl, hc⟩, hn⟩ := h
  have := squash_line s (fun d hd => hn d (by simp [hd]))
  have hc' := hn c (by simp)
  rw [squash, after, if_neg hc', if_neg hc']
  simp [this, hc]

theorem squash_solid_append {a : Str} (h : Solid a) (nl : Bool) (b : Str) : squash nl (a ++ b) = a ++ squash false b := by
  rw [squash_append, (squash_solid h nl).1, (squash_solid h nl).2]

theorem IsWord.solid {s : Str} (h : IsWord s) : Solid s := by
  constructor
  · obtain ⟨c, y, h1, h2⟩ := h.head (x := [])
    rw [List.append_nil] at h1
    refine ⟨c, y, h1, ?_⟩
    intro hc; subst hc; exact absurd h2 (by decide)
  · intro c hc he; subst he; exact absurd (h.2 _ hc) (by decide)

theorem solid_str (t : Tables) (s : Str) : Solid ('"' :: (s.flatMap (escapeChar t) ++ ['"'])) := by
  refine ⟨⟨'"', _, rfl, by decide⟩, ?_⟩
  intro c hc
  simp only [List.mem_cons, List.mem_append, List.mem_flatMap, List.not_mem_nil, or_false] at hc
  rcases hc with rfl | ⟨d, _, hd⟩ | rfl
  · decide
  · exact escapeChar_no_newline t d c hd
  · decide

/-- The items without what closes them. -/
def itemsF (t : Tables) : List (Str × Val) → Str
  | [] => []
  | (n, v) :: fs => n ++ ':' :: ' ' :: (flat t true v ++ ',' :: itemsF t fs)
def itemsV (t : Tables) : List Val → Str
  | [] => []
  | v :: vs => flat t true v ++ ',' :: itemsV t vs

theorem flatFields_true (t : Tables) : ∀ fs, flatFields t true fs = itemsF t fs ++ ['}']
  | [] => by rw [flatFields, itemsF]; rfl
  | (n, v) :: fs => by rw [flatFields, itemsF, flatFields_true t fs]; simp [sep]
theorem flatVals_true (t : Tables) (close : Char) : ∀ vs, flatVals t true close vs = itemsV t vs ++ [close]
  | [] => by rw [flatVals, itemsV]; rfl
  | v :: vs => by rw [flatVals, itemsV, flatVals_true t close vs]; simp [sep]

theorem after_newline : ∀ (nl : Bool) (a : Str), after nl (a ++ ['\n']) = true
  | nl, [] => by simp [after]
  | nl, c :: a => by
    rw [List.cons_append, after]
    split
    · exact after_newline _ a
    · split <;> exact after_newline _ a

mutual
theorem squash_text (t : Tables) : ∀ (v : Val), Ok v → ∀ nl r, squash nl (text t true v ++ r) = flat t true v ++ squash false r
  | .word s, h, nl, r => by
    rw [Ok] at h
    rw [text, flat]; exact squash_solid_append h.solid nl r
  | .str s, _, nl, r => by
    rw [text, flat]; exact squash_solid_append (solid_str t s) nl r
  | .struct n fs, h, nl, r => by
    rw [Ok] at h
    have ih := squash_fields t fs h.2.2
    cases fs with
    | nil => exact absurd rfl h.2.1
    | cons f fs =>
      have e : text t true (.struct n (f :: fs)) ++ r
          = n ++ ([' ', '{'] ++ '\n' :: (textFields t true (f :: fs) ++ '}' :: r)) := by
        rw [text]; simp
      rw [e, flat, flatFields_true, squash_solid_append h.1.solid nl, squash_append,
        (squash_line [' ', '{'] (by decide)).1, (squash_line [' ', '{'] (by decide)).2]
      rw [squash, if_pos rfl, ih]
      simp [squash]
  | .tuple n vs, h, nl, r => by
    rw [Ok] at h
    have ih := squash_vals t vs h.2.2
    cases vs with
    | nil => exact absurd rfl h.2.1
    | cons f fs =>
      have e : text t true (.tuple n (f :: fs)) ++ r
          = n ++ (['('] ++ '\n' :: (textVals t true (f :: fs) ++ ')' :: r)) := by
        rw [text]; simp
      rw [e, flat, flatVals_true, squash_solid_append h.1.solid nl, squash_append,
        (squash_line ['('] (by decide)).1, (squash_line ['('] (by decide)).2]
      rw [squash, if_pos rfl, ih]
      simp [squash]
  | .list vs, h, nl, r => by
    rw [Ok] at h
    have ih := squash_vals t vs h
    cases vs with
    | nil => rw [text, flat, flatVals]; simp [squash]
    | cons f fs =>
      have e : text t true (.list (f :: fs)) ++ r
          = ['['] ++ '\n' :: (textVals t true (f :: fs) ++ ']' :: r) := by
        rw [text]; simp
      rw [e, flat, flatVals_true, squash_solid_append (a := ['[']) ⟨⟨'[', [], rfl, by decide⟩, by decide⟩ nl]
      rw [squash, if_pos rfl, ih]
      simp [squash]
theorem squash_fields (t : Tables) : ∀ (fs : List (Str × Val)), OkFields fs → ∀ r,
    squash true (textFields t true fs ++ r) = itemsF t fs ++ squash true r
  | [], _, r => by rw [textFields, itemsF]; rfl
  | (n, v) :: fs, h, r => by
    rw [OkFields] at h
    have ih := squash_text t v h.2.1
    have ih2 := squash_fields t fs h.2.2 r
    have e : textFields t true ((n, v) :: fs) ++ r
        = pad true (n ++ ([':', ' '] ++ (text t true v ++ [',', '\n']))) ++ (textFields t true fs ++ r) := by
      rw [textFields.eq_def]; simp
    have line : squash true (n ++ ([':', ' '] ++ (text t true v ++ [',', '\n'])))
        = n ++ ':' :: ' ' :: (flat t true v ++ [',']) := by
      rw [squash_solid_append h.1.solid, squash_append, (squash_line [':', ' '] (by decide)).1,
        (squash_line [':', ' '] (by decide)).2, ih]
      simp [squash]
    have aft : after true (n ++ ([':', ' '] ++ (text t true v ++ [',', '\n']))) = true := by
      have := after_newline true (n ++ ([':', ' '] ++ (text t true v ++ [','])))
      simpa using this
    rw [e, squash_append, (squash_pad true true _ (fun h => h)).1, (squash_pad true true _ (fun h => h)).2, line, aft, ih2,
      itemsF]
    simp
theorem squash_vals (t : Tables) : ∀ (vs : List Val), OkVals vs → ∀ r,
    squash true (textVals t true vs ++ r) = itemsV t vs ++ squash true r
  | [], _, r => by rw [textVals, itemsV]; rfl
  | v :: vs, h, r => by
    rw [OkVals] at h
    have ih := squash_text t v h.1
    have ih2 := squash_vals t vs h.2 r
    have e : textVals t true (v :: vs) ++ r
        = pad true (text t true v ++ [',', '\n']) ++ (textVals t true vs ++ r) := by
      rw [textVals.eq_def]; simp
    have line : squash true (text t true v ++ [',', '\n']) = flat t true v ++ [','] := by
      rw [ih]; simp [squash]
    have aft : after true (text t true v ++ [',', '\n']) = true := by
      have := after_newline true (text t true v ++ [','])
      simpa using this
    rw [e, squash_append, (squash_pad true true _ (fun h => h)).1, (squash_pad true true _ (fun h => h)).2, line, aft, ih2,
      itemsV]
    simp
end

end Rescan.Derived
