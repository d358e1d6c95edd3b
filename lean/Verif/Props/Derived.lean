import Verif.Proofs.Derived
/-! # C109, C110: derived `Debug` and `Hash` -/
namespace Rescan.Derived

/-! ## C109: `Debug` -/

/-- A `Debug` text, `{:?}` or `{:#?}`, determines the value, whatever Unicode tables std has. -/
def Identifies {α : Type} (f : α → Val) : Prop :=
  ∀ (t : Tables) (alt : Bool) (a b : α), text t alt (f a) = text t alt (f b) → a = b

theorem identifies_val (t : Tables) (alt : Bool) {v w : Val} (hv : Ok v) (hw : Ok w) (h : text t alt v = text t alt w) : v = w := by
  have key : flat t alt v = flat t alt w := by
    cases alt
    · rw [← text_compact t v hv, ← text_compact t w hw, h]
    · have h1 := squash_text t v hv false []
      have h2 := squash_text t w hw false []
      rw [List.append_nil] at h1 h2
      rw [h, h2] at h1
      simpa [squash] using h1.symm
  exact (flat_inj t alt v hv w hw [] [] (Or.inl rfl) (Or.inl rfl) (by rw [key])).1

theorem identifies {α : Type} {f : α → Val} (ok : ∀ a, Ok (f a)) (inj : ∀ a b, f a = f b → a = b) : Identifies f :=
  fun t alt a b h => inj a b (identifies_val t alt (ok a) (ok b) h)

instance (s : Str) : Decidable (IsWord s) := inferInstanceAs (Decidable (_ ∧ _))

theorem ok_ofBool (b : Bool) : Ok (ofBool b) := by
  cases b <;> (rw [ofBool, Ok]; decide)

theorem ofBool_inj {a b : Bool} (h : ofBool a = ofBool b) : a = b := by
  cases a <;> cases b <;> first | rfl | (rw [ofBool, ofBool] at h; injection h with h; exact absurd h (by decide))

theorem ok_ofNat (n : Nat) : Ok (ofNat n) := by
  rw [ofNat, Ok]; exact ⟨digits_ne_nil 8 n, plain_digits 8 (by omega) n⟩

theorem ofNat_inj {a b : Nat} (h : ofNat a = ofNat b) : a = b := by
  rw [ofNat, ofNat] at h; injection h with h; exact digits_inj (by omega) h

theorem ok_ofOption {α : Type} {f : α → Val} (hf : ∀ a, Ok (f a)) (o : Option α) : Ok (ofOption f o) := by
  cases o with
  | none => rw [ofOption, Ok]; decide
  | some a => rw [ofOption, Ok, OkVals, OkVals]; exact ⟨by decide, by simp, hf a, trivial⟩

theorem ofOption_inj {α : Type} {f : α → Val} (hf : ∀ a b, f a = f b → a = b) {a b : Option α}
    (h : ofOption f a = ofOption f b) : a = b := by
  cases a <;> cases b
  · rfl
  · cases h
  · cases h
  · rename_i a b
    rw [ofOption, ofOption] at h
    injection h with _ h; injection h with h _
    rw [hf a b h]

theorem ok_ofErrorKind (k : ErrorKind) : Ok (ofErrorKind k) := by
  cases k <;> (rw [ofErrorKind, Ok]; decide)

theorem ofErrorKind_inj {a b : ErrorKind} (h : ofErrorKind a = ofErrorKind b) : a = b := by
  cases a <;> cases b <;>
    first | rfl | (rw [ofErrorKind, ofErrorKind] at h; injection h with h; exact absurd h (by decide))

/-- **C109.** The `Debug` text of a compile error determines its kind, its reason and its index. -/
theorem C109_error : Identifies ofCompileError := by
  apply identifies
  · intro e
    simp only [ofCompileError, Ok, OkFields]
    exact ⟨by decide, by simp, by decide, ok_ofErrorKind _, by decide, trivial, by decide, ok_ofOption ok_ofNat _, trivial⟩
  · intro a b h
    simp only [ofCompileError, Val.struct.injEq, List.cons.injEq, Prod.mk.injEq, Val.str.injEq, true_and, and_true] at h
    obtain ⟨h1, h2, h3⟩ := h
    cases a; cases b
    simp only at h1 h2 h3
    rw [ofErrorKind_inj h1, String.toList_inj.mp h2, ofOption_inj (fun _ _ => ofNat_inj) h3]

/-- Its `Display` text does not: the kind is left out, and a reason may end like an index. -/
example : (CompileError.mk .parse "x in expression 7" none).display = (CompileError.mk .other "x" (some 7)).display ∧
    ∀ t alt, text t alt (ofCompileError ⟨.parse, "x in expression 7", none⟩)
      ≠ text t alt (ofCompileError ⟨.other, "x", some 7⟩) :=
  ⟨by decide +kernel, fun t alt h => by have := C109_error t alt _ _ h; simp at this⟩

theorem hexDigit_digitChar : ∀ n, n < 10 → Dump.hexDigit n = n.digitChar := by decide +kernel

theorem decimal_eq (n : Nat) : decimal n = (toString n).toList := by
  have : ∀ n, digits 8 n = Nat.toDigits 10 n := by
    intro n
    induction n using digits.induct 8 with
    | case1 n h => rw [digits, if_pos h, Nat.toDigits_of_lt_base (by omega), hexDigit_digitChar n (by omega)]
    | case2 n h ih =>
      rw [digits, if_neg h, ih, Nat.toDigits_of_base_le (n := n) (by omega) (by omega), hexDigit_digitChar _ (by omega)]
  rw [decimal, this]
  exact Nat.toList_repr.symm

/-- Characters that stand for themselves in the `Debug` text of a string. -/
def StandsForItself (t : Tables) (c : Char) : Prop :=
  t.printable c = true ∧ t.graphemeExtended c = false ∧ c ∉ ['\x00', '\t', '\r', '\n', '\\', '"']

theorem escape_plain (t : Tables) : ∀ s : Str, (∀ c ∈ s, StandsForItself t c) → s.flatMap (escapeChar t) = s
  | [], _ => rfl
  | c :: s, h => by
    obtain ⟨h1, h2, h3⟩ := h c (by simp)
    simp only [List.mem_cons, List.not_mem_nil, or_false, not_or] at h3
    obtain ⟨a1, a2, a3, a4, a5, a6⟩ := h3
    have : escapeChar t c = [c] := by
      unfold escapeChar
      rw [if_neg a1, if_neg a2, if_neg a3, if_neg a4, if_neg a5, if_neg a6, h2, if_neg (by decide), if_pos h1]
    rw [List.flatMap_cons, this, escape_plain t s (fun d hd => h d (by simp [hd]))]
    rfl

theorem pad_line : ∀ (a b : Str), (∀ c ∈ a, c ≠ '\n') → pad false (a ++ b) = a ++ pad false b
  | [], _, _ => rfl
  | c :: a, b, h => by
    have hc : (c == '\n') = false := by simp [h c (by simp)]
    rw [List.cons_append, pad, hc, pad_line a b (fun d hd => h d (by simp [hd]))]
    rfl

theorem pad_word : ∀ (a b : Str), a ≠ [] → (∀ c ∈ a, c ≠ '\n') → pad true (a ++ b) = "    ".toList ++ (a ++ pad false b)
  | [], _, h, _ => absurd rfl h
  | c :: a, b, _, h => by
    have hc : (c == '\n') = false := by simp [h c (by simp)]
    rw [List.cons_append, pad, hc, pad_line a b (fun d hd => h d (by simp [hd]))]
    rfl

/-- C109: the text itself, for a reason without characters that need escaping: `{:?}` on one line, `{:#?}` on several,
four spaces to a level. -/
theorem C109_error_text (t : Tables) (e : CompileError) (h : ∀ c ∈ e.reason.toList, StandsForItself t c) :
    text t false (ofCompileError e)
      = ("CompileError { kind: " ++ (match e.kind with
          | .parse => "Parse" | .locatedParse => "LocatedParse" | .resourceLimit => "ResourceLimit" | .other => "Other")
        ++ ", reason: \"" ++ e.reason ++ "\", index: "
        ++ (match e.index with | none => "None" | some i => "Some(" ++ toString i ++ ")") ++ " }").toList ∧
    text t true (ofCompileError e)
      = ("CompileError {\n    kind: " ++ (match e.kind with
          | .parse => "Parse" | .locatedParse => "LocatedParse" | .resourceLimit => "ResourceLimit" | .other => "Other")
        ++ ",\n    reason: \"" ++ e.reason ++ "\",\n    index: "
        ++ (match e.index with | none => "None" | some i => "Some(\n        " ++ toString i ++ ",\n    )") ++ ",\n}").toList := by
  have hr := escape_plain t _ h
  have hn : ∀ c ∈ e.reason.toList, c ≠ '\n' := by
    intro c hc he; subst he; exact (h _ hc).2.2 (by decide)
  have hd : ∀ (n : Nat) (b : Str), pad true (Nat.toDigits 10 n ++ b) = "    ".toList ++ (Nat.toDigits 10 n ++ pad false b) := by
    intro n b
    have e : Nat.toDigits 10 n = decimal n := by rw [decimal_eq]; exact Nat.toList_repr.symm
    rw [e]
    refine pad_word _ b (digits_ne_nil 8 n) ?_
    intro c hc he; subst he
    exact absurd (plain_digits 8 (by omega) n _ hc) (by decide)
  have hf : ∀ (n : Nat) (b : Str), pad false (Nat.toDigits 10 n ++ b) = Nat.toDigits 10 n ++ pad false b := by
    intro n b
    have e : Nat.toDigits 10 n = decimal n := by rw [decimal_eq]; exact Nat.toList_repr.symm
    rw [e]
    refine pad_line _ b ?_
    intro c hc he; subst he
    exact absurd (plain_digits 8 (by omega) n _ hc) (by decide)
  obtain ⟨k, reason, idx⟩ := e
  simp only at hr hn ⊢
  constructor
  · cases k <;> cases idx <;>
      simp [ofCompileError, ofErrorKind, ofOption, ofNat, text, textFields, textVals, hr, decimal_eq]
  · cases k <;> cases idx <;>
      simp [ofCompileError, ofErrorKind, ofOption, ofNat, text, textFields, textVals, hr, decimal_eq, pad, pad_line _ _ hn, hd, hf]

/-- Non-vacuity: a message with a name in it. -/
example : text ⟨fun _ => false, fun c => decide (0x20 ≤ c.toNat ∧ c.toNat < 0x7f), true⟩ false
      (ofCompileError ⟨.locatedParse, "Missing close parenthesis for group started at index 0.", some 3⟩)
    = "CompileError { kind: LocatedParse, reason: \"Missing close parenthesis for group started at index 0.\", index: Some(3) }".toList := by
  rw [(C109_error_text _ _ (by unfold StandsForItself; decide +kernel)).1]; decide +kernel

/-- C109: `{:?}` keeps a value on one line, whatever is in its strings. -/
theorem C109_one_line (t : Tables) (e : CompileError) : '\n' ∉ text t false (ofCompileError e) := by
  have hk : ∀ k, '\n' ∉ text t false (ofErrorKind k) := by
    intro k; cases k <;> (rw [ofErrorKind, text]; decide)
  have hn : ∀ n, '\n' ∉ decimal n := by
    intro n h; exact absurd (plain_digits 8 (by omega) n _ h) (by decide)
  have hi : '\n' ∉ text t false (ofOption ofNat e.index) := by
    cases e.index with
    | none => rw [ofOption, text]; decide
    | some i => simp [ofOption, ofNat, text, textVals, hn i]
  have hs : '\n' ∉ e.reason.toList.flatMap (escapeChar t) := by
    intro h
    obtain ⟨d, _, hd⟩ := List.mem_flatMap.mp h
    exact escapeChar_no_newline t d _ hd rfl
  simp [ofCompileError, text, textFields, hk, hi]
  simpa using hs

/-- **C109** for byte sets. -/
theorem C109_set : Identifies ofBitField := by
  apply identifies
  · intro b
    simp only [ofBitField, Ok, OkFields]
    refine ⟨by decide, by simp, by decide, ?_, trivial⟩
    generalize b.bits.toList = l
    induction l with
    | nil => trivial
    | cons w l ih => exact ⟨ok_ofNat _, ih⟩
  · intro a b h
    simp only [ofBitField, Val.struct.injEq, List.cons.injEq, Prod.mk.injEq, Val.list.injEq, true_and, and_true] at h
    have key : ∀ l m : List U64, l.map (fun w => ofNat w.toNat) = m.map (fun w => ofNat w.toNat) → l = m := by
      intro l
      induction l with
      | nil => intro m hm; cases m with | nil => rfl | cons _ _ => cases hm
      | cons w l ih =>
        intro m hm
        cases m with
        | nil => cases hm
        | cons x m =>
          injection hm with h1 h2
          rw [BitVec.eq_of_toNat_eq (ofNat_inj h1), ih m h2]
    exact congrArg BitField256.mk (Vector.toList_inj.mp (key _ _ h))

theorem ok_ofCharReach (cr : CharReach) : Ok (ofCharReach cr) := by
  simp only [ofCharReach, Ok, OkFields, ofBitField]
  refine ⟨by decide, by simp, by decide, ⟨by decide, by simp, by decide, ?_, trivial⟩, trivial⟩
  generalize cr.bits.bits.toList = l
  induction l with
  | nil => trivial
  | cons w l ih => exact ⟨ok_ofNat _, ih⟩

theorem ofCharReach_inj {a b : CharReach} (h : ofCharReach a = ofCharReach b) : a = b := by
  simp only [ofCharReach, Val.struct.injEq, List.cons.injEq, Prod.mk.injEq, true_and, and_true] at h
  have := C109_set ⟨fun _ => false, fun _ => false, false⟩ false a.bits b.bits (by rw [h])
  exact congrArg CharReach.mk this

/-- **C109** for classes of characters. -/
theorem C109_class : Identifies ofCharReach := identifies ok_ofCharReach (fun _ _ => ofCharReach_inj)

/-- **C109** for depths. -/
theorem C109_depth : Identifies ofDepth := by
  apply identifies
  · intro d
    simp only [ofDepth, Ok, OkFields]
    exact ⟨by decide, by simp, by decide, ok_ofNat _, trivial⟩
  · intro a b h
    simp only [ofDepth, Val.struct.injEq, List.cons.injEq, Prod.mk.injEq, true_and, and_true] at h
    exact congrArg Depth.mk (ofNat_inj h)

/-- **C109** for output types. -/
theorem C109_output : Identifies ofCcOutput := by
  apply identifies
  · intro o; cases o <;> (rw [ofCcOutput, Ok]; decide)
  · intro a b h
    cases a <;> cases b <;>
      first | rfl | (rw [ofCcOutput, ofCcOutput] at h; injection h with h; exact absurd h (by decide))

theorem ok_ofParseMode (m : ParseMode) : Ok (ofParseMode m) := by
  simp only [ofParseMode, Ok, OkFields]
  exact ⟨by decide, by simp, by decide, ok_ofBool _, by decide, ok_ofBool _, by decide, ok_ofBool _, by decide, ok_ofBool _,
    by decide, ok_ofBool _, by decide, ok_ofBool _, trivial⟩

theorem ofParseMode_inj {a b : ParseMode} (h : ofParseMode a = ofParseMode b) : a = b := by
  simp only [ofParseMode, Val.struct.injEq, List.cons.injEq, Prod.mk.injEq, true_and, and_true] at h
  obtain ⟨h1, h2, h3, h4, h5, h6⟩ := h
  cases a; cases b
  simp only at h1 h2 h3 h4 h5 h6
  rw [ofBool_inj h1, ofBool_inj h2, ofBool_inj h3, ofBool_inj h4, ofBool_inj h5, ofBool_inj h6]

/-- **C109** for parse modes. -/
theorem C109_mode : Identifies ofParseMode := identifies ok_ofParseMode (fun _ _ => ofParseMode_inj)

theorem ok_ofClass (c : ComponentClass) : Ok (ofClass c) := by
  cases c with
  | ascii c =>
    simp only [ofClass, ofAsciiClass, Ok, OkFields, OkVals]
    exact ⟨by decide, by simp, ⟨by decide, by simp, by decide, ok_ofParseMode _, by decide, ok_ofCharReach _, trivial⟩, trivial⟩

theorem ofClass_inj {a b : ComponentClass} (h : ofClass a = ofClass b) : a = b := by
  cases a with | ascii a => cases b with | ascii b =>
  simp only [ofClass, ofAsciiClass, Val.tuple.injEq, Val.struct.injEq, List.cons.injEq, Prod.mk.injEq, true_and, and_true] at h
  cases a; cases b
  simp only at h
  rw [ofParseMode_inj h.1, ofCharReach_inj h.2]

mutual
theorem ok_ofComponent : ∀ c, Ok (ofComponent c)
  | .alternation a => by
    simp only [ofComponent, Ok, OkVals]; exact ⟨by decide, by simp, ok_ofAlternation a, trivial⟩
  | .cls c => by
    simp only [ofComponent, Ok, OkVals]; exact ⟨by decide, by simp, ok_ofClass c, trivial⟩
  | .sequence s => by
    simp only [ofComponent, Ok, OkVals]; exact ⟨by decide, by simp, ok_ofSequence s, trivial⟩
theorem ok_ofAlternation : ∀ a, Ok (ofAlternation a)
  | .mk cs => by
    simp only [ofAlternation, Ok, OkFields]; exact ⟨by decide, by simp, by decide, ok_ofSequences cs, trivial⟩
theorem ok_ofSequence : ∀ s, Ok (ofSequence s)
  | .mk cs alt idx nm => by
    simp only [ofSequence, Ok, OkFields]
    exact ⟨by decide, by simp, by decide, ok_ofComponents cs, by decide, ok_ofAltOption alt, by decide, ok_ofOption ok_ofNat idx,
      by decide, ok_ofOption (f := fun s => .str s.toList) (fun _ => by rw [Ok]; trivial) nm, trivial⟩
theorem ok_ofAltOption : ∀ o, Ok (ofAltOption o)
  | none => by rw [ofAltOption, Ok]; decide
  | some a => by
    rw [ofAltOption, Ok, OkVals, OkVals]; exact ⟨by decide, by simp, ok_ofAlternation a, trivial⟩
theorem ok_ofComponents : ∀ cs, OkVals (ofComponents cs)
  | [] => trivial
  | c :: cs => by rw [ofComponents, OkVals]; exact ⟨ok_ofComponent c, ok_ofComponents cs⟩
theorem ok_ofSequences : ∀ cs, OkVals (ofSequences cs)
  | [] => trivial
  | c :: cs => by rw [ofSequences, OkVals]; exact ⟨ok_ofSequence c, ok_ofSequences cs⟩
end

mutual
theorem ofComponent_inj : ∀ a b, ofComponent a = ofComponent b → a = b
  | .alternation a, .alternation b, h => by
    simp only [ofComponent, Val.tuple.injEq, List.cons.injEq, true_and, and_true] at h
    rw [ofAlternation_inj a b h]
  | .cls a, .cls b, h => by
    simp only [ofComponent, Val.tuple.injEq, List.cons.injEq, true_and, and_true] at h
    rw [ofClass_inj h]
  | .sequence a, .sequence b, h => by
    simp only [ofComponent, Val.tuple.injEq, List.cons.injEq, true_and, and_true] at h
    rw [ofSequence_inj a b h]
  | .alternation _, .cls _, h => by simp [ofComponent] at h
  | .alternation _, .sequence _, h => by simp [ofComponent] at h
  | .cls _, .alternation _, h => by simp [ofComponent] at h
  | .cls _, .sequence _, h => by simp [ofComponent] at h
  | .sequence _, .alternation _, h => by simp [ofComponent] at h
  | .sequence _, .cls _, h => by simp [ofComponent] at h
theorem ofAlternation_inj : ∀ a b, ofAlternation a = ofAlternation b → a = b
  | .mk a, .mk b, h => by
    simp only [ofAlternation, Val.struct.injEq, List.cons.injEq, Prod.mk.injEq, Val.list.injEq, true_and, and_true] at h
    rw [ofSequences_inj a b h]
theorem ofSequence_inj : ∀ a b, ofSequence a = ofSequence b → a = b
  | .mk a a2 a3 a4, .mk b b2 b3 b4, h => by
    simp only [ofSequence, Val.struct.injEq, List.cons.injEq, Prod.mk.injEq, Val.list.injEq, true_and, and_true] at h
    obtain ⟨h1, h2, h3, h4⟩ := h
    have h5 : ∀ x y : String, Val.str x.toList = Val.str y.toList → x = y := by
      intro x y hxy; injection hxy with hxy; exact String.toList_inj.mp hxy
    rw [ofComponents_inj a b h1, ofAltOption_inj a2 b2 h2, ofOption_inj (fun _ _ => ofNat_inj) h3, ofOption_inj h5 h4]
theorem ofAltOption_inj : ∀ a b, ofAltOption a = ofAltOption b → a = b
  | none, none, _ => rfl
  | none, some _, h => by simp [ofAltOption] at h
  | some _, none, h => by simp [ofAltOption] at h
  | some a, some b, h => by
    simp only [ofAltOption, Val.tuple.injEq, List.cons.injEq, true_and, and_true] at h
    rw [ofAlternation_inj a b h]
theorem ofComponents_inj : ∀ a b, ofComponents a = ofComponents b → a = b
  | [], [], _ => rfl
  | [], _ :: _, h => by simp [ofComponents] at h
  | _ :: _, [], h => by simp [ofComponents] at h
  | a :: as, b :: bs, h => by
    simp only [ofComponents, List.cons.injEq] at h
    rw [ofComponent_inj a b h.1, ofComponents_inj as bs h.2]
theorem ofSequences_inj : ∀ a b, ofSequences a = ofSequences b → a = b
  | [], [], _ => rfl
  | [], _ :: _, h => by simp [ofSequences] at h
  | _ :: _, [], h => by simp [ofSequences] at h
  | a :: as, b :: bs, h => by
    simp only [ofSequences, List.cons.injEq] at h
    rw [ofSequence_inj a b h.1, ofSequences_inj as bs h.2]
end

/-- **C109** for parse trees: everything in them, the parse modes of their classes included, which the dump leaves out (C72). -/
theorem C109_tree : Identifies ofComponent := identifies ok_ofComponent ofComponent_inj

/-- Non-vacuity: an upper-case letter and a caseless one have the same dump, but not the same `Debug` text. -/
example (t : Tables) (alt : Bool) : ∀ a b : ComponentClass, getLiteralComponentClass 'A' true = .ok a →
    getLiteralComponentClass 'A' false = .ok b →
    text t alt (ofComponent (.cls a)) ≠ text t alt (ofComponent (.cls b)) := by
  intro a b ha hb h
  have := C109_tree t alt _ _ h
  injection this with this
  rw [this] at ha
  rw [← ha] at hb
  exact absurd hb (by decide +kernel)

/-- Non-vacuity: the text of a small tree. -/
example : text ⟨fun _ => false, fun _ => true, true⟩ false (ofComponent (.sequence (.mk
      [.alternation (.mk [])] (some (.mk [.default])) (some 12) (some "a\"b")))) =
    ("Sequence(ComponentSequence { children: [Alternation(ComponentAlternation { children: [] })], alternation: Some("
      ++ "ComponentAlternation { children: [ComponentSequence { children: [], alternation: None, capture_index: None, "
      ++ "capture_name: None }] }), capture_index: Some(12), capture_name: Some(\"a\\\"b\") })").toList := by
  decide +kernel

/-- Non-vacuity: the text of a class. -/
example : text ⟨fun _ => false, fun _ => true, true⟩ false (ofComponent
      (.cls (.ascii ⟨⟨true, false, false, false, false, true⟩, CharReach.fromBytes [0x41#8, 0x61#8]⟩))) =
    ("Class(Ascii(AsciiComponentClass { mode: ParseMode { caseless: true, dotall: false, "
      ++ "ignore_space: false, multiline: false, ucp: false, utf8: true }, cr: CharReach { bits: BitField256 { bits: "
      ++ "[0, 8589934594, 0, 0] } } }))").toList := by
  decide +kernel

/-! ## Flags -/

/-- The flags declared by a table of names and bit numbers. -/
def table (l : List (String × Nat)) : List (String × Nat) := l.map (fun d => (d.1, 2 ^ d.2))

/-- Bit numbers of `Flags`. -/
def flagBits : List (String × Nat) :=
  [("CASELESS", 0), ("DOTALL", 1), ("MULTILINE", 2), ("SINGLEMATCH", 3), ("ALLOWEMPTY", 4), ("UTF8", 5), ("UCP", 6),
   ("PREFILTER", 7), ("SOM_LEFTMOST", 8), ("COMBINATION", 9), ("QUIET", 10)]

/-- Bit numbers of `PosFlags`. -/
def posFlagBits : List (String × Nat) := [("NOFLOAT", 0), ("MUST_FLOAT", 4), ("MULTILINE_START", 8)]

theorem declaredFlags_eq : declaredFlags = table flagBits := by decide +kernel
theorem declaredPosFlags_eq : declaredPosFlags = table posFlagBits := by decide +kernel

theorem contains_bit (bits k : Nat) : (bits &&& 2 ^ k == 2 ^ k) = bits.testBit k := by
  cases hb : bits.testBit k
  · rw [beq_eq_false_iff_ne]
    intro h
    have := congrArg (fun n => n.testBit k) h
    simp [Nat.testBit_and, Nat.testBit_two_pow, hb] at this
  · rw [beq_iff_eq]
    apply Nat.eq_of_testBit_eq
    intro j
    rw [Nat.testBit_and, Nat.testBit_two_pow]
    by_cases hj : k = j
    · subst hj; simp [hb]
    · simp [hj]

theorem known_bits : ∀ (l : List (String × Nat)) (a j : Nat),
    ((table l).foldl (fun a d => a ||| d.2) a).testBit j = (a.testBit j || l.any (fun d => d.2 == j))
  | [], a, j => by simp [table]
  | d :: l, a, j => by
    have := known_bits l (a ||| 2 ^ d.2) j
    simp only [table, List.map_cons, List.foldl_cons] at this ⊢
    rw [this, Nat.testBit_or, Nat.testBit_two_pow, List.any_cons, Bool.or_assoc]
    rfl

/-- The names of the declared flags among the bits. -/
def names (l : List (String × Nat)) (bits : Nat) : List Str :=
  (l.filter (fun d => bits.testBit d.2)).map (fun d => d.1.toList)

/-- The bits that are not declared. -/
def rest (l : List (String × Nat)) (bits : Nat) : Nat :=
  bits - (bits &&& (table l).foldl (fun a d => a ||| d.2) 0)

theorem flagParts_eq (alt : Bool) (l : List (String × Nat)) (bits : Nat) :
    flagParts alt (table l) bits = names l bits ++
      (if rest l bits = 0 then [] else [(if alt then "0x0x".toList else "0x".toList) ++ digits 14 (rest l bits)]) := by
  have : ((table l).filter (fun d => bits &&& d.2 == d.2)).map (fun d => d.1.toList) = names l bits := by
    unfold names table
    rw [List.filter_map, List.map_map]
    congr 1
    apply List.filter_congr
    intro d _
    exact contains_bit bits d.2
  unfold flagParts
  simp only [this]
  rfl

/-- Names that can be told apart from each other and from numbers. -/
def Distinct (l : List (String × Nat)) : Prop :=
  (l.map Prod.fst).Nodup ∧ ∀ d ∈ l, IsWord d.1.toList ∧ d.1.toList.head? ≠ some '0'

theorem mem_names {l : List (String × Nat)} (hl : Distinct l) {d : String × Nat} (hd : d ∈ l) (bits : Nat) :
    d.1.toList ∈ names l bits ↔ bits.testBit d.2 = true := by
  unfold names
  rw [List.mem_map]
  constructor
  · rintro ⟨e, he, heq⟩
    rw [List.mem_filter] at he
    have h1 : e.1 = d.1 := String.toList_inj.mp heq
    have h2 : e = d := by
      have hn := hl.1
      clear hl
      induction l with
      | nil => cases hd
      | cons x l ih =>
        rw [List.map_cons, List.nodup_cons] at hn
        rcases List.mem_cons.mp hd with rfl | hd' <;> rcases List.mem_cons.mp he.1 with rfl | he'
        · rfl
        · exact absurd (h1 ▸ List.mem_map_of_mem he') hn.1
        · exact absurd (h1 ▸ List.mem_map_of_mem hd') hn.1
        · exact ih hd' ⟨he', he.2⟩ hn.2
    rw [← h2]; exact he.2
  · intro h
    exact ⟨d, List.mem_filter.mpr ⟨hd, h⟩, rfl⟩

theorem head_names {l : List (String × Nat)} (hl : Distinct l) (bits : Nat) : ∀ w ∈ names l bits, w.head? ≠ some '0' := by
  intro w hw
  obtain ⟨d, hd, rfl⟩ := List.mem_map.mp hw
  exact (hl.2 d (List.mem_filter.mp hd).1).2

/-- What is written for the rest. -/
def number (alt : Bool) (n : Nat) : Str := (if alt then "0x0x".toList else "0x".toList) ++ digits 14 n

theorem number_head (alt : Bool) (n : Nat) : (number alt n).head? = some '0' := by
  cases alt <;> rfl

theorem number_inj {alt : Bool} {m n : Nat} (h : number alt m = number alt n) : m = n :=
  digits_inj (by omega) (List.append_cancel_left h)

theorem mem_parts_number {l : List (String × Nat)} (hl : Distinct l) (alt : Bool) (bits n : Nat) :
    number alt n ∈ flagParts alt (table l) bits ↔ rest l bits = n ∧ n ≠ 0 := by
  rw [flagParts_eq, List.mem_append]
  constructor
  · rintro (h | h)
    · exact absurd (number_head alt n) (head_names hl bits _ h)
    · split at h
      · cases h
      · rename_i h0
        have := number_inj (List.mem_singleton.mp h)
        exact ⟨this.symm, this ▸ h0⟩
  · rintro ⟨h1, h2⟩
    right
    rw [h1, if_neg h2]
    exact List.mem_singleton.mpr rfl

theorem mem_parts_name {l : List (String × Nat)} (hl : Distinct l) (alt : Bool) (bits : Nat) {d : String × Nat} (hd : d ∈ l) :
    d.1.toList ∈ flagParts alt (table l) bits ↔ bits.testBit d.2 = true := by
  rw [flagParts_eq, List.mem_append, mem_names hl hd]
  constructor
  · rintro (h | h)
    · exact h
    · split at h
      · cases h
      · have : d.1.toList = number alt (rest l bits) := List.mem_singleton.mp h
        exact absurd (this ▸ number_head alt _) (hl.2 d hd).2
  · exact Or.inl

theorem flagParts_inj {l : List (String × Nat)} (hl : Distinct l) (alt : Bool) {a b : Nat}
    (h : flagParts alt (table l) a = flagParts alt (table l) b) : a = b := by
  have hr : rest l a = rest l b := by
    have key : ∀ n, (rest l a = n ∧ n ≠ 0) ↔ (rest l b = n ∧ n ≠ 0) := by
      intro n; rw [← mem_parts_number hl alt, ← mem_parts_number hl alt, h]
    by_cases h0 : rest l a = 0
    · by_cases h1 : rest l b = 0
      · rw [h0, h1]
      · exact ((key (rest l b)).mpr ⟨rfl, h1⟩).1
    · exact ((key (rest l a)).mp ⟨rfl, h0⟩).1.symm
  have hk : a &&& (table l).foldl (fun a d => a ||| d.2) 0 = b &&& (table l).foldl (fun a d => a ||| d.2) 0 := by
    apply Nat.eq_of_testBit_eq
    intro j
    rw [Nat.testBit_and, Nat.testBit_and, known_bits, Nat.zero_testBit, Bool.false_or]
    cases hj : l.any (fun d => d.2 == j)
    · simp
    · obtain ⟨d, hd, hdj⟩ := List.any_eq_true.mp hj
      have hdj' : d.2 = j := by simpa using hdj
      have e : a.testBit d.2 = b.testBit d.2 := by
        rw [Bool.eq_iff_iff, ← mem_parts_name hl alt a hd, ← mem_parts_name hl alt b hd, h]
      rw [hdj'] at e; rw [e]
  have h1 := Nat.and_le_left (n := a) (m := (table l).foldl (fun a d => a ||| d.2) 0)
  have h2 := Nat.and_le_left (n := b) (m := (table l).foldl (fun a d => a ||| d.2) 0)
  unfold rest at hr
  omega

/-- The parts with ` | ` between them. -/
def joined : List Str → Str
  | [] => "(empty)".toList
  | [w] => w
  | w :: ws => w ++ " | ".toList ++ joined ws

theorem joined_cons (w v : Str) (ws : List Str) : joined (w :: v :: ws) = w ++ (' ' :: '|' :: ' ' :: joined (v :: ws)) := by
  rw [joined]
  · simp
  · simp

theorem flagText_joined (alt : Bool) (l : List (String × Nat)) (bits : Nat) :
    flagText alt l bits = joined (flagParts alt l bits) := by
  have key : ∀ (ws : List Str) (a w : Str), ws.foldl (fun acc x => acc ++ " | ".toList ++ x) (a ++ w) = a ++ joined (w :: ws) := by
    intro ws
    induction ws with
    | nil => intro a w; rfl
    | cons x ws ih =>
      intro a w
      rw [List.foldl_cons, ih, joined_cons]
      simp
  unfold flagText
  cases flagParts alt l bits with
  | nil => rfl
  | cons w ws => exact key ws [] w

theorem joined_inj : ∀ (a b : List Str), (∀ w ∈ a, IsWord w) → (∀ w ∈ b, IsWord w) → joined a = joined b → a = b
  | [], [], _, _, _ => rfl
  | [], w :: ws, _, hb, h => by
    have hw := hb w (by simp)
    have : ∃ x, joined (w :: ws) = w ++ x := by cases ws with
      | nil => exact ⟨[], by simp [joined]⟩
      | cons v ws => exact ⟨_, by rw [joined]; rw [List.append_assoc]; simp⟩
    obtain ⟨x, hx⟩ := this
    rw [hx] at h
    exact absurd h.symm (word_ne (y := "empty)".toList) (c := '(') hw (by decide))
  | w :: ws, [], ha, _, h => by
    have hw := ha w (by simp)
    have : ∃ x, joined (w :: ws) = w ++ x := by cases ws with
      | nil => exact ⟨[], by simp [joined]⟩
      | cons v ws => exact ⟨_, by rw [joined]; rw [List.append_assoc]; simp⟩
    obtain ⟨x, hx⟩ := this
    rw [hx] at h
    exact absurd h (word_ne (y := "empty)".toList) (c := '(') hw (by decide))
  | [w], [v], ha, hb, h => by simpa [joined] using h
  | [w], v :: u :: vs, ha, hb, h => by
    have h' : w ++ [] = v ++ (' ' :: '|' :: ' ' :: joined (u :: vs)) := by
      rw [joined_cons] at h; simpa [joined] using h
    have := (split_at (ha w (by simp)).2 (hb v (by simp)).2 stopsAt_nil (stopsAt_cons (by decide)) h').2
    cases this
  | w :: u :: ws, [v], ha, hb, h => by
    have h' : w ++ (' ' :: '|' :: ' ' :: joined (u :: ws)) = v ++ [] := by
      rw [joined_cons] at h; simpa [joined] using h
    have := (split_at (ha w (by simp)).2 (hb v (by simp)).2 (stopsAt_cons (by decide)) stopsAt_nil h').2
    cases this
  | w :: u :: ws, v :: x :: vs, ha, hb, h => by
    have h' : w ++ (' ' :: '|' :: ' ' :: joined (u :: ws)) = v ++ (' ' :: '|' :: ' ' :: joined (x :: vs)) := by
      rw [joined_cons, joined_cons] at h; exact h
    obtain ⟨h1, h2⟩ := split_at (ha w (by simp)).2 (hb v (by simp)).2 (stopsAt_cons (by decide)) (stopsAt_cons (by decide)) h'
    injection h2 with _ h2; injection h2 with _ h2; injection h2 with _ h2
    rw [h1, joined_inj (u :: ws) (x :: vs) (fun y hy => ha y (by simp [hy])) (fun y hy => hb y (by simp [hy])) h2]

theorem words_parts {l : List (String × Nat)} (hl : Distinct l) (alt : Bool) (bits : Nat) :
    ∀ w ∈ flagParts alt (table l) bits, IsWord w := by
  intro w hw
  rw [flagParts_eq, List.mem_append] at hw
  rcases hw with hw | hw
  · obtain ⟨d, hd, rfl⟩ := List.mem_map.mp hw
    exact (hl.2 d (List.mem_filter.mp hd).1).1
  · split at hw
    · cases hw
    · rw [List.mem_singleton] at hw
      rw [hw]
      refine ⟨?_, ?_⟩
      · cases alt <;> simp
      · intro c hc
        rcases List.mem_append.mp hc with hc | hc
        · cases alt
          · exact (show ∀ c ∈ "0x".toList, Plain c by decide) c hc
          · exact (show ∀ c ∈ "0x0x".toList, Plain c by decide) c hc
        · exact plain_digits 14 (by omega) _ c hc

theorem flagText_inj {l : List (String × Nat)} (hl : Distinct l) (alt : Bool) {a b : Nat}
    (h : flagText alt (table l) a = flagText alt (table l) b) : a = b := by
  rw [flagText_joined, flagText_joined] at h
  exact flagParts_inj hl alt (joined_inj _ _ (words_parts hl alt a) (words_parts hl alt b) h)

instance (l : List (String × Nat)) : Decidable (Distinct l) := inferInstanceAs (Decidable (_ ∧ _))

/-- **C109** for flags, with any sixteen bits. -/
theorem C109_flags (alt : Bool) (a b : Flags) (h : flagsText alt a = flagsText alt b) : a = b := by
  unfold flagsText at h
  rw [declaredFlags_eq] at h
  exact congrArg Flags.mk (BitVec.eq_of_toNat_eq (flagText_inj (by decide +kernel) alt h))

example (a : Flags) (h : flagsText false a = "CASELESS | SOM_LEFTMOST".toList) : a = Flags.CASELESS.or .SOM_LEFTMOST :=
  C109_flags false _ _ (h.trans (by decide +kernel))

/-- **C109** for the flags of positions. -/
theorem C109_position_flags (alt : Bool) (a b : PosFlags) (h : posFlagsText alt a = posFlagsText alt b) : a = b := by
  unfold posFlagsText at h
  rw [declaredPosFlags_eq] at h
  exact congrArg PosFlags.mk (BitVec.eq_of_toNat_eq (flagText_inj (by decide +kernel) alt h))

example (a : PosFlags) (h : posFlagsText true a = "NOFLOAT | MUST_FLOAT".toList) : a = ⟨0x011#32⟩ :=
  C109_position_flags true _ _ (h.trans (by decide +kernel))

/-- C109: for declared flags the text is their names in order of declaration, separated by ` | `. -/
theorem C109_flags_text (alt : Bool) (f : Flags) (h : f.bits &&& 0x07ff#16 = f.bits) (hf : f.bits ≠ 0#16) :
    flagsText alt f = List.intercalate " | ".toList
      (((List.range 11).filter (fun i => f.bits.getLsbD i)).map (fun i =>
        (["CASELESS", "DOTALL", "MULTILINE", "SINGLEMATCH", "ALLOWEMPTY", "UTF8", "UCP", "PREFILTER", "SOM_LEFTMOST",
          "COMBINATION", "QUIET"].getD i "").toList)) ∧ flagsText alt .empty = "(empty)".toList := by
  have inter : ∀ ws : List Str, ws ≠ [] → joined ws = List.intercalate " | ".toList ws := by
    intro ws
    induction ws with
    | nil => intro h; exact absurd rfl h
    | cons w ws ih =>
      intro _
      cases ws with
      | nil => simp [joined, List.intercalate]
      | cons v ws =>
        rw [joined, ih (by simp)]
        · simp [List.intercalate]
        · simp
  have hrest : rest flagBits f.bits.toNat = 0 := by
    have e : (table flagBits).foldl (fun a d => a ||| d.2) 0 = 0x07ff := by decide +kernel
    have := congrArg BitVec.toNat h
    rw [BitVec.toNat_and] at this
    unfold rest
    rw [e]
    have e2 : (0x07ff#16).toNat = 0x07ff := by decide
    rw [e2] at this
    rw [this]; omega
  have hnames : names flagBits f.bits.toNat = (((List.range 11).filter (fun i => f.bits.getLsbD i)).map (fun i =>
        (["CASELESS", "DOTALL", "MULTILINE", "SINGLEMATCH", "ALLOWEMPTY", "UTF8", "UCP", "PREFILTER", "SOM_LEFTMOST",
          "COMBINATION", "QUIET"].getD i "").toList)) := by
    have e : flagBits = (List.range 11).map (fun i => (["CASELESS", "DOTALL", "MULTILINE", "SINGLEMATCH", "ALLOWEMPTY", "UTF8",
      "UCP", "PREFILTER", "SOM_LEFTMOST", "COMBINATION", "QUIET"].getD i "", i)) := by decide +kernel
    unfold names
    rw [e, List.filter_map, List.map_map]
    rfl
  have hne : names flagBits f.bits.toNat ≠ [] := by
    intro he
    apply hf
    have : f = Flags.empty := by
      apply C109_flags false
      unfold flagsText
      rw [declaredFlags_eq, flagText_joined, flagText_joined, flagParts_eq, he, hrest]
      decide +kernel
    rw [this]; rfl
  constructor
  · unfold flagsText
    rw [declaredFlags_eq, flagText_joined, flagParts_eq, hrest, if_pos rfl, List.append_nil, inter _ hne, hnames]
  · cases alt <;> decide +kernel

/-- Non-vacuity. -/
example : flagsText false (Flags.CASELESS.or .SOM_LEFTMOST) = "CASELESS | SOM_LEFTMOST".toList ∧
    posFlagsText true ⟨0x111#32⟩ = "NOFLOAT | MUST_FLOAT | MULTILINE_START".toList ∧
    posFlagsText false ⟨0x2#32⟩ = "0x2".toList := by decide +kernel

/-! ## C110: `Hash` -/

theorem wordBytes_inj (little : Bool) {a b : U64} (h : wordBytes little a = wordBytes little b) : a = b := by
  have h' : (List.range 8).map (fun i => ((a >>> (8 * i)).truncate 8 : U8)) = (List.range 8).map (fun i => ((b >>> (8 * i)).truncate 8 : U8)) := by
    cases little
    · exact List.reverse_inj.mp h
    · exact h
  have byte : ∀ i, i < 8 → ((a >>> (8 * i)).truncate 8 : U8) = (b >>> (8 * i)).truncate 8 :=
    fun i hi => List.map_inj_left.mp h' i (List.mem_range.mpr hi)
  apply BitVec.eq_of_getLsbD_eq
  intro j hj
  have := congrArg (fun (x : U8) => x.getLsbD (j % 8)) (byte (j / 8) (by omega))
  simp only [BitVec.truncate_eq_setWidth, BitVec.getLsbD_setWidth, BitVec.getLsbD_ushiftRight] at this
  rw [show 8 * (j / 8) + j % 8 = j by omega] at this
  simpa [show j % 8 < 8 by omega] using this

theorem length_wordBytes (little : Bool) (w : U64) : (wordBytes little w).length = 8 := by
  cases little <;> simp [wordBytes]

theorem bytes_inj (little : Bool) : ∀ a b : List U64, a.length = b.length →
    a.flatMap (wordBytes little) = b.flatMap (wordBytes little) → a = b
  | [], [], _, _ => rfl
  | [], _ :: _, h, _ => by simp at h
  | _ :: _, [], h, _ => by simp at h
  | a :: as, b :: bs, hl, h => by
    rw [List.flatMap_cons, List.flatMap_cons] at h
    obtain ⟨h1, h2⟩ := List.append_inj h (by rw [length_wordBytes, length_wordBytes])
    rw [wordBytes_inj little h1, bytes_inj little as bs (by simpa using hl) h2]

/-- Equal values make the same calls on a hasher, and the calls for different values differ, even if more calls follow. -/
def HashAgrees {α : Type} (f : α → List HashCall) : Prop := ∀ (a b : α) (x y : List HashCall), f a ++ x = f b ++ y → a = b ∧ x = y

/-- **C110.** `Hash` agrees with `==` for reports, positions, byte sets and classes (words of either byte order). -/
theorem C110_hash (little : Bool) : HashAgrees hashReport ∧ HashAgrees hashPositionInfo ∧ HashAgrees (hashBitField little) ∧
    HashAgrees (hashCharReach little) := by
  have hb : HashAgrees (hashBitField little) := by
    intro a b x y h
    simp only [hashBitField, List.cons_append, List.nil_append, List.cons.injEq, HashCall.bytes.injEq, true_and] at h
    exact ⟨congrArg BitField256.mk (Vector.toList_inj.mp (bytes_inj little _ _ (by simp) h.1)), h.2⟩
  refine ⟨?_, ?_, hb, ?_⟩
  · intro a b x y h
    simp only [hashReport, List.cons_append, List.nil_append, List.cons.injEq, HashCall.u64.injEq] at h
    exact ⟨congrArg Report.mk h.1, h.2⟩
  · intro a b x y h
    simp only [hashPositionInfo, List.cons_append, List.nil_append, List.cons.injEq, HashCall.u32.injEq] at h
    obtain ⟨h1, h2, h3⟩ := h
    refine ⟨?_, h3⟩
    obtain ⟨p, ⟨f⟩⟩ := a
    obtain ⟨q, ⟨g⟩⟩ := b
    simp only at h1 h2
    rw [h1, BitVec.eq_of_toNat_eq h2]
  · intro a b x y h
    obtain ⟨h1, h2⟩ := hb a.bits b.bits x y h
    exact ⟨congrArg CharReach.mk h1, h2⟩

/-- Non-vacuity: the bytes of a set, lowest word first. -/
example : hashCharReach true (CharReach.fromBytes [0x00#8, 0x41#8]) =
    [.usize 4, .bytes ([1, 0, 0, 0, 0, 0, 0, 0, 2, 0, 0, 0, 0, 0, 0, 0] ++ List.replicate 16 0)] := by decide +kernel

end Rescan.Derived
