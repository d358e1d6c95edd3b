import Verif.Proofs.Utf8
import Verif.Proofs.Parser
/-! # Property C89: the parser on bytes -/
namespace Rescan
open Spec Bytes

private theorem bvn (n : Nat) (h : n < 256) : (BitVec.ofNat 8 n).toNat = n := by
  rw [BitVec.toNat_ofNat]; omega

private theorem bve {a : U8} {n : Nat} (h : a.toNat = n) : BitVec.ofNat 8 n = a := by
  subst h; simp

private theorem exists_char (n : Nat) (h : n < 0xd800 ∨ (0xdfff < n ∧ n < 0x110000)) : ∃ c : Char, c.toNat = n :=
  ⟨Char.ofNatAux n h, rfl⟩

private theorem utf8_char (c : Char) (r : List U8) (hr : Utf8 r) : Utf8 (encodeChar c ++ r) := by
  have hv := toNat_valid c
  unfold encodeChar
  simp only
  generalize c.toNat = n at hv
  split
  · exact .one _ _ ⟨by omega, by rw [bvn _ (by omega)]; omega⟩ hr
  split
  · exact .two _ _ _ ⟨by rw [bvn _ (by omega)]; omega, by rw [bvn _ (by omega)]; omega⟩
      ⟨by rw [bvn _ (by omega)]; omega, by rw [bvn _ (by omega)]; omega⟩ hr
  split
  · have hb : In 0x80 0xBF (BitVec.ofNat 8 (0x80 + n / 64 % 64)) :=
      ⟨by rw [bvn _ (by omega)]; omega, by rw [bvn _ (by omega)]; omega⟩
    have hc : In 0x80 0xBF (BitVec.ofNat 8 (0x80 + n % 64)) :=
      ⟨by rw [bvn _ (by omega)]; omega, by rw [bvn _ (by omega)]; omega⟩
    by_cases h1 : n < 0x1000
    · exact .three_E0 _ _ _ _ ⟨by rw [bvn _ (by omega)]; omega, by rw [bvn _ (by omega)]; omega⟩
        ⟨by rw [bvn _ (by omega)]; omega, by rw [bvn _ (by omega)]; omega⟩ hc hr
    by_cases h2 : n < 0xD000
    · exact .three_E1_EC _ _ _ _ ⟨by rw [bvn _ (by omega)]; omega, by rw [bvn _ (by omega)]; omega⟩ hb hc hr
    by_cases h3 : n < 0xE000
    · exact .three_ED _ _ _ _ ⟨by rw [bvn _ (by omega)]; omega, by rw [bvn _ (by omega)]; omega⟩
        ⟨by rw [bvn _ (by omega)]; omega, by rw [bvn _ (by omega)]; omega⟩ hc hr
    · exact .three_EE_EF _ _ _ _ ⟨by rw [bvn _ (by omega)]; omega, by rw [bvn _ (by omega)]; omega⟩ hb hc hr
  · have hb : In 0x80 0xBF (BitVec.ofNat 8 (0x80 + n / 4096 % 64)) :=
      ⟨by rw [bvn _ (by omega)]; omega, by rw [bvn _ (by omega)]; omega⟩
    have hc : In 0x80 0xBF (BitVec.ofNat 8 (0x80 + n / 64 % 64)) :=
      ⟨by rw [bvn _ (by omega)]; omega, by rw [bvn _ (by omega)]; omega⟩
    have hd : In 0x80 0xBF (BitVec.ofNat 8 (0x80 + n % 64)) :=
      ⟨by rw [bvn _ (by omega)]; omega, by rw [bvn _ (by omega)]; omega⟩
    by_cases h1 : n < 0x40000
    · exact .four_F0 _ _ _ _ _ ⟨by rw [bvn _ (by omega)]; omega, by rw [bvn _ (by omega)]; omega⟩
        ⟨by rw [bvn _ (by omega)]; omega, by rw [bvn _ (by omega)]; omega⟩ hc hd hr
    by_cases h2 : n < 0x100000
    · exact .four_F1_F3 _ _ _ _ _ ⟨by rw [bvn _ (by omega)]; omega, by rw [bvn _ (by omega)]; omega⟩ hb hc hd hr
    · exact .four_F4 _ _ _ _ _ ⟨by rw [bvn _ (by omega)]; omega, by rw [bvn _ (by omega)]; omega⟩
        ⟨by rw [bvn _ (by omega)]; omega, by rw [bvn _ (by omega)]; omega⟩ hc hd hr

private theorem two_bytes {a b : U8} (ha : In 0xC2 0xDF a) (hb : In 0x80 0xBF b) : ∃ c, encodeChar c = [a, b] := by
  obtain ⟨ha, ha'⟩ := ha; obtain ⟨hb, hb'⟩ := hb
  obtain ⟨c, hc⟩ := exists_char ((a.toNat - 0xC0) * 64 + (b.toNat - 0x80)) (by omega)
  refine ⟨c, ?_⟩
  unfold encodeChar
  simp only [hc]
  rw [if_neg (by omega), if_pos (by omega), bve (a := a) (by omega), bve (a := b) (by omega)]

private theorem three_bytes {a b c : U8} (ha : In 0xE0 0xEF a) (hb : In 0x80 0xBF b) (hc : In 0x80 0xBF c)
    (h0 : a.toNat = 0xE0 → 0xA0 ≤ b.toNat) (h1 : a.toNat = 0xED → b.toNat ≤ 0x9F) :
    ∃ x, encodeChar x = [a, b, c] := by
  obtain ⟨ha, ha'⟩ := ha; obtain ⟨hb, hb'⟩ := hb; obtain ⟨hc, hc'⟩ := hc
  obtain ⟨x, hx⟩ := exists_char ((a.toNat - 0xE0) * 4096 + (b.toNat - 0x80) * 64 + (c.toNat - 0x80)) (by omega)
  refine ⟨x, ?_⟩
  unfold encodeChar
  simp only [hx]
  rw [if_neg (by omega), if_neg (by omega), if_pos (by omega), bve (a := a) (by omega), bve (a := b) (by omega),
    bve (a := c) (by omega)]

private theorem four_bytes {a b c d : U8} (ha : In 0xF0 0xF4 a) (hb : In 0x80 0xBF b) (hc : In 0x80 0xBF c)
    (hd : In 0x80 0xBF d) (h0 : a.toNat = 0xF0 → 0x90 ≤ b.toNat) (h1 : a.toNat = 0xF4 → b.toNat ≤ 0x8F) :
    ∃ x, encodeChar x = [a, b, c, d] := by
  obtain ⟨ha, ha'⟩ := ha; obtain ⟨hb, hb'⟩ := hb; obtain ⟨hc, hc'⟩ := hc; obtain ⟨hd, hd'⟩ := hd
  obtain ⟨x, hx⟩ := exists_char ((a.toNat - 0xF0) * 262144 + (b.toNat - 0x80) * 4096 + (c.toNat - 0x80) * 64
    + (d.toNat - 0x80)) (by omega)
  refine ⟨x, ?_⟩
  unfold encodeChar
  simp only [hx]
  rw [if_neg (by omega), if_neg (by omega), if_neg (by omega), bve (a := a) (by omega), bve (a := b) (by omega),
    bve (a := c) (by omega), bve (a := d) (by omega)]

private theorem exists_text {bs : List U8} (h : Utf8 bs) : ∃ s : Str, encode s = bs := by
  have step : ∀ (x : List U8) (r : List U8), (∃ c, encodeChar c = x) → (∃ s : Str, encode s = r) →
      ∃ s : Str, encode s = x ++ r := by
    rintro x r ⟨c, rfl⟩ ⟨s, rfl⟩
    exact ⟨c :: s, rfl⟩
  induction h with
  | nil => exact ⟨[], rfl⟩
  | one a s ha _ ih =>
    refine step [a] s ?_ ih
    obtain ⟨c, hc⟩ := exists_char a.toNat (.inl (by have := ha.2; omega))
    refine ⟨c, ?_⟩
    unfold encodeChar
    simp only [hc]
    rw [if_pos (by have := ha.2; omega), bve rfl]
  | two a b s ha hb _ ih => exact step [a, b] s (two_bytes ha hb) ih
  | three_E0 a b c s ha hb hc _ ih =>
    obtain ⟨ha, ha'⟩ := ha; obtain ⟨hb, hb'⟩ := hb
    exact step [a, b, c] s (three_bytes ⟨ha, by omega⟩ ⟨by omega, hb'⟩ hc (fun _ => hb) (fun _ => by omega)) ih
  | three_E1_EC a b c s ha hb hc _ ih =>
    obtain ⟨ha, ha'⟩ := ha
    exact step [a, b, c] s (three_bytes ⟨by omega, by omega⟩ hb hc (fun _ => by omega) (fun _ => by omega)) ih
  | three_ED a b c s ha hb hc _ ih =>
    obtain ⟨ha, ha'⟩ := ha; obtain ⟨hb, hb'⟩ := hb
    exact step [a, b, c] s (three_bytes ⟨by omega, by omega⟩ ⟨hb, by omega⟩ hc (fun _ => by omega) (fun _ => hb')) ih
  | three_EE_EF a b c s ha hb hc _ ih =>
    obtain ⟨ha, ha'⟩ := ha
    exact step [a, b, c] s (three_bytes ⟨by omega, ha'⟩ hb hc (fun _ => by omega) (fun _ => by omega)) ih
  | four_F0 a b c d s ha hb hc hd _ ih =>
    obtain ⟨ha, ha'⟩ := ha; obtain ⟨hb, hb'⟩ := hb
    exact step [a, b, c, d] s (four_bytes ⟨ha, by omega⟩ ⟨by omega, hb'⟩ hc hd (fun _ => hb) (fun _ => by omega)) ih
  | four_F1_F3 a b c d s ha hb hc hd _ ih =>
    obtain ⟨ha, ha'⟩ := ha
    exact step [a, b, c, d] s (four_bytes ⟨by omega, by omega⟩ hb hc hd (fun _ => by omega) (fun _ => by omega)) ih
  | four_F4 a b c d s ha hb hc hd _ ih =>
    obtain ⟨ha, ha'⟩ := ha; obtain ⟨hb, hb'⟩ := hb
    exact step [a, b, c, d] s
      (four_bytes ⟨by omega, ha'⟩ ⟨hb, by omega⟩ hc hd (fun _ => by omega) (fun _ => hb')) ih

/-- **C89.** UTF-8: a byte sequence is well-formed iff it is the encoding of a text, different texts have
different encodings, decoding undoes encoding, and the length of the encoding is the length the rest of the
model uses. -/
theorem C89_utf8 : (∀ bs, Utf8 bs ↔ ∃ s : Str, encode s = bs) ∧ (∀ s t : Str, encode s = encode t → s = t) ∧
    (∀ s : Str, decode (encode s) = s ∧ (encode s).length = utf8Len s) := by
  refine ⟨fun bs => ⟨exists_text, ?_⟩, fun _ _ => encode_injective, fun s => ⟨decode_encode s, encode_length s⟩⟩
  rintro ⟨s, rfl⟩
  induction s with
  | nil => exact .nil
  | cons c s ih => exact utf8_char c _ ih

/-- The four lengths of encodings, and a sequence that is not well-formed (a surrogate). -/
example : encode "aé€😀".toList = [0x61, 0xC3, 0xA9, 0xE2, 0x82, 0xAC, 0xF0, 0x9F, 0x98, 0x80] ∧
    ¬ Utf8 [0xED, 0xA0, 0x80] := by
  refine ⟨by decide, ?_⟩
  rw [C89_utf8.1]
  rintro ⟨s, hs⟩
  have h := decode_encode s
  rw [hs] at h
  have h' : decode [0xED, 0xA0, 0x80] = [Char.ofNat 0xD800] := by decide
  rw [h'] at h
  rw [← h] at hs
  revert hs
  decide

/-! ## The parser -/

private theorem lit_eq (x : String) (h : ∀ c ∈ x.toList, c.toNat < 128) : lit x = encode x.toList := by
  unfold lit encode
  generalize x.toList = l at h
  induction l with
  | nil => rfl
  | cons c l ih =>
    rw [List.map_cons, List.flatMap_cons, ← ih (fun d hd => h d (List.mem_cons_of_mem _ hd))]
    have : encodeChar c = [BitVec.ofNat 8 c.toNat] := by
      unfold encodeChar
      simp only
      rw [if_pos (h c List.mem_cons_self)]
    rw [this]; rfl

private theorem eq_lit (v : Str) (x : String) (h : ∀ c ∈ x.toList, c.toNat < 128) :
    (encode v = lit x) = (v = x.toList) := by
  rw [lit_eq x h]
  exact propext ⟨encode_injective, fun e => by rw [e]⟩

theorem controlVerb_encode {ε : Type} (s : Str) : Bytes.controlVerb (ε := ε) (encode s)
    = .ok ((Rescan.controlVerb s).map (fun x => (encode x.1, encode x.2))) := by
  unfold Bytes.controlVerb
  rw [lit_eq "(*" (by decide), tag_encode]
  show (match (if "(*".toList.isPrefixOf s = true then some (encode (s.drop 2), encode "(*".toList) else none) with
    | none => _ | some (i, _) => _) = _
  by_cases h : "(*".toList.isPrefixOf s = true
  · rw [if_pos h]
    obtain ⟨r, rfl⟩ := List.isPrefixOf_iff_prefix.1 h
    show (match Bytes.isNotClose (encode r) with | none => _ | some (i, verb) => _) = _
    rw [isNotClose_encode]
    unfold Rescan.controlVerb
    show _ = Outcome.ok (Option.map _ (match Rescan.isNotClose r with | none => none | some (rest', verb) => _))
    cases Rescan.isNotClose r with
    | none => rfl
    | some x =>
      obtain ⟨i, v⟩ := x
      simp only [Option.map]
      show Outcome.bind (Bytes.char ')' (encode i)) _ = _
      rw [char_encode]
      cases i with
      | nil => rfl
      | cons d i =>
        by_cases hd : d = ')'
        · subst hd; rfl
        · simp only [Outcome.bind, if_neg hd]
          have hn : ∀ o : Option (Str × Str), o = none → (pure none : Outcome ε (Option (List U8 × List U8)))
              = .ok (o.map (fun x => (encode x.1, encode x.2))) := by
            rintro _ rfl; rfl
          refine hn _ ?_
          split
          · rename_i heq; cases heq; exact absurd rfl hd
          · rfl
  · rw [if_neg h]
    have : Rescan.controlVerb s = none := by
      unfold Rescan.controlVerb
      split
      · rename_i r
        exact absurd (List.isPrefixOf_iff_prefix.2 ⟨r, rfl⟩) h
      · rfl
    rw [this]
    rfl

/-- **C89.** A `&str` may be cut at a byte offset exactly between two of its characters, and this gives the texts before
and after it; anywhere else, and past the end, cutting panics. -/
theorem C89_split {ε : Type} (s : Str) (i : Nat) :
    (∃ u v, s = u ++ v ∧ i = (encode u).length ∧ Bytes.splitAt (ε := ε) (encode s) i = .ok (encode u, encode v)) ∨
    ((¬ ∃ u v, s = u ++ v ∧ i = (encode u).length) ∧ (Bytes.splitAt (ε := ε) (encode s) i).isPanic = true) := by
  by_cases h : ∃ u v, s = u ++ v ∧ i = (encode u).length
  · obtain ⟨u, v, rfl, rfl⟩ := h
    refine .inl ⟨u, v, rfl, rfl, ?_⟩
    rw [encode_append, splitAt_encode]
  · refine .inr ⟨h, ?_⟩
    have h2 : Bytes.isCharBoundary (encode s) i = false := by
      rw [← boundary_iff] at h
      simpa using h
    unfold Bytes.splitAt
    rw [h2]; rfl

/-- In "aé€": after `é` (offset 3), inside `€` (offset 4), and past the end. -/
example : Bytes.splitAt (ε := CompileError) (encode "aé€".toList) 3 = .ok (encode "aé".toList, encode "€".toList) ∧
    (Bytes.splitAt (ε := CompileError) (encode "aé€".toList) 4).isPanic = true ∧
    (Bytes.splitAt (ε := CompileError) (encode "aé€".toList) 7).isPanic = true := by decide

/-- C89: reading a control verb on bytes is reading it on characters. -/
theorem C89_control_verbs (s : Str) (start : Nat) (mode : ParseMode) :
    Bytes.readControlVerbs (encode s) start mode = (do
      let (rest, m) ← Rescan.readControlVerbs s start mode
      return (encode rest, m)) := by
  unfold Bytes.readControlVerbs Rescan.readControlVerbs
  rw [controlVerb_encode]
  cases Rescan.controlVerb s with
  | none => rfl
  | some x =>
    obtain ⟨rest, v⟩ := x
    simp only [Option.map]
    show (if encode v = lit "UCP" then _ else _) = Outcome.bind (if v = "UCP".toList then _ else _) _
    have hmem : (encode v ∈ ["NO_AUTO_POSSESS", "NO_START_OPT", "UTF16", "UTF32", "CR", "LF", "CRLF", "ANYCRLF",
        "ANY", "BSR_ANYCRLF", "BSR_UNICODE"].map lit) = (v ∈ unsupportedVerbs) := by
      unfold unsupportedVerbs
      simp only [List.map_cons, List.map_nil, List.mem_cons, List.not_mem_nil, or_false]
      repeat rw [eq_lit _ _ (by decide)]
    simp only [eq_lit v "UCP" (by decide), eq_lit v "UTF8" (by decide), eq_lit v "UTF" (by decide), hmem,
      lit_eq "LIMIT_MATCH=" (by decide), lit_eq "LIMIT_RECURSION=" (by decide), encode_prefix, encode_prefix,
      decode_encode]
    split
    · rfl
    split
    · rfl
    split
    · rfl
    split <;> rfl

/-- The state of the parser on bytes that a state of the parser on characters stands for. -/
def byteContext (ptr : Str) (c : Rescan.Context) : Bytes.Context where
  ptr := encode ptr
  p := encode c.p
  mode := c.mode
  sequences := c.sequences
  groupIndex := c.groupIndex
  currentSeq := c.currentSeq

/-- C89: one step on bytes is one step on characters. -/
theorem C89_step (pr : Profile) (ptr : Str) (c : Rescan.Context) (hc : c.ptrLen = utf8Len ptr) :
    (byteContext ptr c).main pr (encode c.p) = (do
      let c' ← c.main pr c.p
      return byteContext ptr c') ∧
    ∀ c', c.main pr c.p = .ok c' → c'.ptrLen = c.ptrLen := by
  obtain ⟨pl, p, mode, seqs, gi, cur⟩ := c
  simp only at hc
  subst hc
  unfold Bytes.Context.main
  simp only [char_encode, takeAny_encode]
  cases p with
  | nil => exact ⟨rfl, fun c' h => by injection h with h; rw [← h]⟩
  | cons d p =>
    by_cases h1 : d = '('
    · subst h1
      show Outcome.bind (Bytes.Context.pushSequence pr _ _) _ = Outcome.bind (Outcome.bind (Context.pushSequence pr _ _) _) _ ∧
        ∀ c', Outcome.bind (Context.pushSequence pr _ _) _ = Outcome.ok c' → _
      unfold Bytes.Context.pushSequence Context.pushSequence byteContext
      simp only [encode_length]
      cases Context.u32Incr pr gi with
      | ok g =>
        cases Context.usizeSub (ε := CompileError) pr (utf8Len ('(' :: p)) (utf8Len ptr) with
        | ok o => exact ⟨rfl, fun c' h => by injection h with h; rw [← h]⟩
        | err e => exact ⟨rfl, fun c' h => by cases h⟩
        | panic m => exact ⟨rfl, fun c' h => by cases h⟩
        | timeout => exact ⟨rfl, fun c' h => by cases h⟩
      | err e => exact ⟨rfl, fun c' h => by cases h⟩
      | panic m => exact ⟨rfl, fun c' h => by cases h⟩
      | timeout => exact ⟨rfl, fun c' h => by cases h⟩
    by_cases h2 : d = ')'
    · subst h2
      cases seqs with
      | nil => exact ⟨rfl, fun c' h => by cases h⟩
      | cons v seqs => exact ⟨rfl, fun c' h => by injection h with h; rw [← h]⟩
    by_cases h3 : d = '|'
    · subst h3
      exact ⟨rfl, fun c' h => by injection h with h; rw [← h]⟩
    have hm : Context.main pr ⟨utf8Len ptr, d :: p, mode, seqs, gi, cur⟩ (d :: p) = (do
        rassert (decide (d.toNat < 128)) "assertion failed: c.is_ascii()"
        match addLiteral cur d mode with
        | .err e =>
          let idx ← Context.usizeSub pr (utf8Len ptr) (utf8Len (d :: p))
          .err { e with reason := e.reason ++ " at index " ++ toString idx }
        | .panic m => .panic m
        | .timeout => .timeout
        | .ok seq => return ⟨utf8Len ptr, p, mode, seqs, gi, seq⟩) := by
      unfold Context.main
      split
      · rename_i heq; cases heq; exact absurd rfl h1
      · rename_i heq; cases heq; exact absurd rfl h2
      · rename_i heq; cases heq; exact absurd rfl h3
      · rename_i heq; cases heq; rfl
      · rename_i heq; cases heq
    rw [hm]
    simp only [if_neg h1, if_neg h2, if_neg h3]
    show Outcome.bind (rassert (decide (d.toNat < 128)) _) _
        = Outcome.bind (Outcome.bind (rassert (decide (d.toNat < 128)) _) _) _ ∧
      ∀ c', Outcome.bind (rassert (decide (d.toNat < 128)) _) _ = Outcome.ok c' → _
    cases decide (d.toNat < 128) with
    | false => exact ⟨rfl, fun c' h => by cases h⟩
    | true =>
      simp only [rassert, if_true, Outcome.bind]
      show (match addLiteral cur d mode with | .err e => _ | .panic m => _ | .timeout => _ | .ok seq => _) = _ ∧ _
      cases addLiteral cur d mode with
      | ok seq => exact ⟨rfl, fun c' h => by injection h with h; rw [← h]⟩
      | err e =>
        simp only [byteContext, encode_length]
        cases Context.usizeSub (ε := CompileError) pr (utf8Len ptr) (utf8Len (d :: p)) with
        | ok o => exact ⟨rfl, fun c' h => by cases h⟩
        | err e => exact ⟨rfl, fun c' h => by cases h⟩
        | panic m => exact ⟨rfl, fun c' h => by cases h⟩
        | timeout => exact ⟨rfl, fun c' h => by cases h⟩
      | panic m => exact ⟨rfl, fun c' h => by cases h⟩
      | timeout => exact ⟨rfl, fun c' h => by cases h⟩

example : (Rescan.Context.new "(a|é".toList "(a|é".toList ParseMode.default).ptrLen = utf8Len "(a|é".toList ∧
    ((Rescan.Context.new "(a|é".toList "(a|é".toList ParseMode.default).main .release "(a|é".toList).isOk = true := by
  decide +kernel

private theorem loop_encode (pr : Profile) (ptr : Str) : ∀ (n : Nat) (c : Rescan.Context) (fuel : Nat),
    c.ptrLen = utf8Len ptr → c.p.length ≤ n → (encode c.p).length ≤ fuel →
    (byteContext ptr c).mainLoop pr fuel = (do
      let c' ← c.mainLoop pr n
      return byteContext ptr c') := by
  intro n
  induction n with
  | zero =>
    intro c fuel hc hn _
    have hp : c.p = [] := List.eq_nil_of_length_eq_zero (by omega)
    unfold Bytes.Context.mainLoop Context.mainLoop
    have : (byteContext ptr c).p = [] := by show encode c.p = []; rw [hp]; rfl
    rw [this, hp]
    rfl
  | succ n ih =>
    intro c fuel hc hn hf
    unfold Bytes.Context.mainLoop Context.mainLoop
    cases hp : c.p with
    | nil =>
      have : (byteContext ptr c).p = [] := by show encode c.p = []; rw [hp]; rfl
      rw [this]
      rfl
    | cons d p =>
      have hbp : (byteContext ptr c).p = encode c.p := rfl
      have hne : (encode c.p).isEmpty = false := by
        cases h : encode c.p with
        | nil => rw [encode_eq_nil, hp] at h; cases h
        | cons _ _ => rfl
      rw [hbp, hne]
      cases fuel with
      | zero =>
        have := length_le_encode c.p
        rw [hp] at this hf
        simp only [List.length_cons] at this
        omega
      | succ fuel =>
        obtain ⟨h1, h2⟩ := C89_step pr ptr c hc
        show Outcome.bind ((byteContext ptr c).main pr (encode c.p)) _ =
          Outcome.bind (Outcome.bind (c.main pr (d :: p)) _) _
        rw [h1, ← hp]
        cases hm : c.main pr c.p with
        | ok c' =>
          have hp' : c'.p = p := Context.main_p pr c c' d p (by rw [← hp]; exact hm)
          refine ih c' fuel ((h2 c' hm).trans hc) (by rw [hp', ]; rw [hp] at hn; simpa using hn) ?_
          rw [hp']
          rw [hp, encode_cons, List.length_append, encodeChar_length] at hf
          have := utf8Size_pos' d
          omega
        | err e => rfl
        | panic m => rfl
        | timeout => rfl

/-- **C89.** Parsing the bytes of a text has the outcome of parsing its characters: tree, mode, error
(with text and byte index) or panic.  In particular no slice is cut inside a character. -/
theorem C89_parse (pr : Profile) (s : Str) (mode : ParseMode) :
    Bytes.parse pr (encode s) mode = Rescan.parse pr s mode := by
  unfold Bytes.parse Rescan.parse
  rw [C89_control_verbs]
  cases Rescan.readControlVerbs s 0 mode with
  | err e => rfl
  | panic m => rfl
  | timeout => rfl
  | ok x =>
    obtain ⟨p, m⟩ := x
    show Outcome.bind (Bytes.Context.parse pr (Bytes.Context.new (encode s) (encode p) m)) _ =
      Outcome.bind (Context.parse pr (Context.new s p m)) _
    unfold Bytes.Context.parse Context.parse
    have hb : Bytes.Context.new (encode s) (encode p) m = byteContext s (Context.new s p m) := rfl
    rw [hb]
    show Outcome.bind (Outcome.bind ((byteContext s (Context.new s p m)).mainLoop pr (encode p).length) _) _ =
      Outcome.bind (Outcome.bind ((Context.new s p m).mainLoop pr p.length) _) _
    have hl := loop_encode pr s p.length (Context.new s p m) (encode p).length rfl (Nat.le_refl _) (Nat.le_refl _)
    rw [hl]
    cases (Context.new s p m).mainLoop pr p.length with
    | ok c' => rfl
    | err e => rfl
    | panic m => rfl
    | timeout => rfl

/-- C89, for every `&str`: its bytes are well-formed, so they are those of a text, and parsing them is
parsing that text. -/
theorem C89_every_str (pr : Profile) (bs : List U8) (h : Utf8 bs) (mode : ParseMode) :
    ∃ s : Str, encode s = bs ∧ Bytes.parse pr bs mode = Rescan.parse pr s mode := by
  obtain ⟨s, rfl⟩ := exists_text h
  exact ⟨s, rfl, C89_parse pr s mode⟩

/-- Bytes that are well-formed, with a character of two bytes: the assertion fails, nothing else. -/
example : Utf8 (encode "(a|é)".toList) ∧
    (Bytes.parse .release (encode "(a|é)".toList) ParseMode.default).isPanic = true ∧
    (Bytes.parse .release (encode "(*UTF8)(a|b)".toList) ParseMode.default).isOk = true :=
  ⟨C89_utf8.1 _ |>.2 ⟨_, rfl⟩, by decide +kernel, by decide +kernel⟩

end Rescan
