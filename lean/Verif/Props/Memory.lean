import Verif.Proofs.MemoryAll
import Verif.Props.CallStack
import Verif.Props.Profiles
import Verif.Props.Reference
/-! # C112: how much memory is enough -/
namespace Rescan
open Spec

/-- What is alive after compiling, `live` elements having been alive before: these and, after an error, its message; also if
compiling panicked. -/
def LiveAfter (live l : Nat) : Res Database → Prop
  | .ok _ => l = live
  | .err e => l = live + ownedError e
  | .panic _ => l = live
  | .timeout => True

theorem liveAfter_of {live l : Nat} {o : Res Database} (h : Memory.Left live (fun _ => 0) 0 l o) : LiveAfter live l o := by
  cases o with
  | ok x => exact h
  | err e => exact h
  | panic m => exact h
  | timeout => trivial

/-- C112: with room for `memoryFor g es` elements, and for a message if one is made, compiling ends as without a limit. After a
success or a panic everything has been given back, after an error everything but the message. -/
theorem C112_enough (p : Profile) (es : List Str) (fs : List Flags) (ids : List Nat) (mode : Mode) (g : Grey) (lim live : Nat)
    (h : live + memoryFor g es + raisedBy p es fs ids mode g ≤ lim) :
    ∃ l, Memory.compileMultiInt p es fs ids mode g lim live = some (compileMultiInt p es fs ids mode g, l) ∧
      LiveAfter live l (compileMultiInt p es fs ids mode g) := by
  obtain ⟨l, e, hl⟩ := Memory.compileMultiInt_uses p es fs ids mode g _ (Nat.le_refl _) lim live (by omega)
  exact ⟨l, e, liveAfter_of hl⟩

example : memoryFor Grey.default ["ab(c|d)".toList, "foo".toList] = 23 + 5 * 2 + 2 * 10 + 6 * 7 ∧
    raisedBy .release ["ab(c|d)".toList, "foo".toList] [⟨0⟩, ⟨0⟩] [1, 2] .block Grey.default = 0 ∧
    (match Memory.compileMultiInt .release ["ab(c|d)".toList, "foo".toList] [⟨0⟩, ⟨0⟩] [1, 2] .block Grey.default 95 0 with
      | some (.ok _, 0) => true
      | _ => false) = true := by decide +kernel

/-- C112: whatever the limit, if memory does not run out, compiling ends as without a limit and leaks nothing; and what is left
is within the limit. -/
theorem C112_no_leak (p : Profile) (es : List Str) (fs : List Flags) (ids : List Nat) (mode : Mode) (g : Grey) (lim live l : Nat)
    (o : Res Database) (h : Memory.compileMultiInt p es fs ids mode g lim live = some (o, l)) :
    o = compileMultiInt p es fs ids mode g ∧ LiveAfter live l o ∧ (live ≤ lim → l ≤ lim) ∧
    ∀ lim', lim ≤ lim' → Memory.compileMultiInt p es fs ids mode g lim' live = some (o, l) := by
  have ht := Memory.tame_compileMultiInt p es fs ids mode g
  obtain ⟨rfl, hl⟩ := (Memory.compileMultiInt_uses p es fs ids mode g _ (Nat.le_refl _)).always ht (live := live) h
  exact ⟨rfl, liveAfter_of hl, fun hlim => ht.within hlim h, fun lim' hl => ht.more hl h⟩

example : (match Memory.compileMultiInt .release ["ab".toList, "c(d|é".toList] [⟨0⟩, ⟨0⟩] [1, 2] .block Grey.default 40 7 with
    | some (.panic m, l) => decide (m = "assertion failed: c.is_ascii()" ∧ l = 7)
    | _ => false) = true ∧
    (match Memory.compileMultiInt .debug ["ab".toList, "c(d".toList] [⟨0⟩, ⟨0⟩] [1, 2] .block Grey.default 40 7 with
    | some (.panic m, l) => decide (m = "attempt to subtract with overflow" ∧ l = 7)
    | _ => false) = true := by
  decide +kernel

example : (match Memory.compileMultiInt .release ["a".toList, "b)".toList] [⟨0⟩, ⟨0⟩] [1, 2] .block Grey.default 40 7 with
    | some (.err e, l) => decide (e.reason = "Unmatched parentheses" ∧ l = 7 + 21)
    | _ => false) = true ∧
    Memory.compileMultiInt .release ["a".toList, "b)".toList] [⟨0⟩, ⟨0⟩] [1, 2] .block Grey.default 27 7 = none := by
  constructor
  · decide +kernel
  · have : (Memory.compileMultiInt .release ["a".toList, "b)".toList] [⟨0⟩, ⟨0⟩] [1, 2] .block Grey.default 27 7).isNone = true := by
      decide +kernel
    exact Option.isNone_iff_eq_none.1 this

/-- C112, what is needed at least: room for the `Ng` as it is when the database is built, with the two tries; after an error for
the message. -/
theorem C112_needed (p : Profile) (es : List Str) (fs : List Flags) (ids : List Nat) (mode : Mode) (g : Grey) (lim live l : Nat) :
    (∀ db, Memory.compileMultiInt p es fs ids mode g lim live = some (.ok db, l) →
      ∃ ng, compileNg p es fs ids mode g = .ok ng ∧ db = build ng ∧ live + 1 + ownedNg ng ≤ lim) ∧
    (∀ e, live ≤ lim → Memory.compileMultiInt p es fs ids mode g lim live = some (.err e, l) → live + ownedError e ≤ lim) := by
  constructor
  · intro db h
    have hp := (C112_no_leak p es fs ids mode g lim live l _ h).1
    rw [compileMultiInt_eq] at hp
    obtain ⟨ng, hng, hb⟩ := bind_eq_ok hp.symm
    refine ⟨ng, hng, (Outcome.ok.inj hb).symm, ?_⟩
    unfold Memory.compileMultiInt at h
    unfold compileNg at hng
    split at hng
    · cases hng
    rename_i he
    split at hng
    · cases hng
    rename_i hc
    rw [if_neg he, if_neg hc] at h
    dsimp only at hng
    have hu := Memory.addAll_uses p es.length g (izip es fs ids) 0 0 _ _
      (Memory.Kept.new es.length g mode.isStreaming mode.isVectored mode.somPrecision) (Nat.le_refl _)
    have ht := Memory.tame_addAll p (izip es fs ids) 0 (Ng.new ⟨mode.isStreaming, mode.isVectored, g⟩ es.length mode.somPrecision)
    simp only [bind, Memory.H.bind, Memory.alloc] at h
    split at h
    · cases h
    · rename_i h1
      split at h1
      · rename_i hl
        cases h1
        split at h
        · cases h
        · rename_i h2
          split at h2
          · rename_i hl2
            cases h2
            split at h
            · cases h
            · rename_i h3
              split at h3
              · rename_i hl3
                cases h3
                split at h
                · cases h
                · rename_i x l' h4
                  obtain ⟨e1, e2⟩ := hu.always ht (live := live) (r := .ok x) (l := l') h4
                  have e3 := ht.within hl3 h4
                  rw [hng] at e1 e2
                  cases e1
                  simp only [Memory.Left] at e2
                  omega
                all_goals cases h
              · cases h3
            all_goals cases h
          · cases h2
        all_goals cases h
      · cases h1
    all_goals cases h
  · intro e hlim h
    obtain ⟨_, h1, h2, _⟩ := C112_no_leak p es fs ids mode g lim live l _ h
    have := h2 hlim
    simp only [LiveAfter] at h1
    omega

example : (match compileNg .release ["ab".toList] [⟨0⟩] [1] .block Grey.default with
    | .ok ng => decide (1 + ownedNg ng = 11)
    | _ => false) = true ∧
    (match Memory.compileMultiInt .release ["ab".toList] [⟨0⟩] [1] .block Grey.default 20 0 with
    | some (.ok _, 0) => true
    | _ => false) = true := by decide +kernel

/-! ## Messages -/

theorem bind_err {ε α β : Type} {x : Outcome ε α} {f : α → Outcome ε β} {e : ε} (hx : ∀ e, x ≠ .err e) (h : x.bind f = .err e) :
    ∃ a, x = .ok a ∧ f a = .err e := by
  cases x with
  | ok a => exact ⟨a, rfl, h⟩
  | err e => exact absurd rfl (hx e)
  | panic m => cases h
  | timeout => cases h

theorem raised_eq (p : Profile) : ∀ (xs : List (Str × Flags × Nat)) (i : Nat) (ng : Ng) (e : CompileError),
    addAll p i ng xs = .err e → raised p i ng xs = ownedError e
  | [], _, _, _, h => nomatch h
  | (x, f, id) :: xs, i, ng, e, h => by
    rw [addAll] at h
    rw [raised]
    split at h
    · rename_i ng' ha
      rw [ha]
      exact raised_eq p xs (i + 1) ng' e h
    · cases h
    · cases h
    · rename_i e' ha
      rw [ha]
      obtain ⟨j, _, h⟩ := bind_err (Memory.toU32_noerr _ _) h
      obtain ⟨e2, h2, h⟩ := bind_err (fun e => by
        unfold CompileError.setExpressionIndex rdebugAssert; intro h; split at h <;> cases h) h
      cases h
      unfold CompileError.setExpressionIndex at h2
      obtain ⟨_, _, h2⟩ := bind_eq_ok h2
      cases h2
      rfl

/-- C112: the room for a message is for the message of the error that is returned. -/
theorem C112_raised (p : Profile) (es : List Str) (fs : List Flags) (ids : List Nat) (mode : Mode) (g : Grey) (e : CompileError)
    (h : compileMultiInt p es fs ids mode g = .err e) : raisedBy p es fs ids mode g = utf8Len e.reason.toList := by
  rw [compileMultiInt_eq] at h
  unfold compileNg at h
  unfold raisedBy
  split at h
  · rename_i h1; cases h; rw [if_pos h1]; rfl
  · rename_i h1
    rw [if_neg h1]
    split at h
    · rename_i h2; cases h; rw [if_pos h2]; rfl
    · rename_i h2
      rw [if_neg h2]
      refine raised_eq p _ _ _ _ ?_
      dsimp only at h
      cases ha : addAll p 0 (Ng.new ⟨mode.isStreaming, mode.isVectored, g⟩ es.length mode.somPrecision) (izip es fs ids) with
      | err x => rw [ha] at h; cases h; rfl
      | ok x => rw [ha] at h; cases h
      | panic x => rw [ha] at h; cases h
      | timeout => rw [ha] at h; cases h

example : compileMultiInt .release [] [] [] .block Grey.default = .err ⟨.other, "Invalid parameter: expressions is empty", none⟩ :=
  rfl

/-- Debug builds make no longer messages. -/
theorem raised_debug : ∀ (xs : List (Str × Flags × Nat)) (i : Nat) (ng : Ng), raised .debug i ng xs ≤ raised .release i ng xs
  | [], _, _ => Nat.le_refl _
  | (x, f, id) :: xs, i, ng => by
    rw [raised, raised]
    rcases agrees_addExpression ng i x f id with h | h
    · cases ha : addExpression .debug ng i x f id with
      | panic m => exact Nat.zero_le _
      | ok _ => rw [ha] at h; cases h
      | err _ => rw [ha] at h; cases h
      | timeout => exact Nat.zero_le _
    · rw [← h]
      cases ha : addExpression .debug ng i x f id with
      | ok ng' => exact raised_debug xs (i + 1) ng'
      | err _ => exact Nat.le_refl _
      | panic m => exact Nat.le_refl _
      | timeout => exact Nat.le_refl _

/-- In a release build nothing goes wrong with an error. -/
theorem raised_release : ∀ (xs : List (Str × Flags × Nat)) (i : Nat) (ng : Ng), i + xs.length ≤ 2 ^ 32 →
    raised .release i ng xs = Memory.message (addAll .release i ng xs)
  | [], _, _, _ => rfl
  | (x, f, id) :: xs, i, ng, hi => by
    rw [raised, addAll]
    rw [List.length_cons] at hi
    cases ha : addExpression .release ng i x f id with
    | ok ng' => exact raised_release xs (i + 1) ng' (by omega)
    | panic m => rfl
    | timeout => rfl
    | err e =>
      dsimp only
      unfold ReportManager.toU32
      rw [if_pos (by omega)]
      rfl

/-- `n` has at most `k` digits. -/
theorem digits_length : ∀ (k n : Nat), n < 10 ^ (k + 1) → (Nat.toDigits 10 n).length ≤ k + 1
  | 0, n, h => by rw [Nat.toDigits_of_lt_base (by omega)]; exact Nat.le_refl _
  | k + 1, n, h => by
    by_cases hn : n < 10
    · rw [Nat.toDigits_of_lt_base hn]; show 1 ≤ _; omega
    · rw [Nat.toDigits_of_base_le (by decide) (by omega), List.length_append]
      have := digits_length k (n / 10) (by rw [Nat.pow_succ] at h; omega)
      show _ + 1 ≤ _
      omega

theorem utf8Len_number (k n : Nat) (h : n < 10 ^ (k + 1)) : utf8Len (toString n).toList ≤ k + 1 := by
  have e : (toString n).toList = Nat.toDigits 10 n := Nat.toList_repr
  have hd : ∀ c ∈ Nat.toDigits 10 n, c.toNat < 128 := by
    intro c hc
    have := Nat.isDigit_of_mem_toDigits (by decide) (by decide) hc
    simp only [Char.isDigit, Bool.and_eq_true, decide_eq_true_eq] at this
    have := this.2
    rw [UInt32.le_iff_toNat_le] at this
    change c.val.toNat < 128
    have e : '9'.val.toNat = 57 := rfl
    omega
  rw [e, CallStack.utf8Len_ascii hd]
  exact digits_length k n h

theorem message_append (a b : String) : utf8Len (a ++ b).toList = utf8Len a.toList + utf8Len b.toList := by
  rw [String.toList_append, Context.utf8Len_append]

theorem walk_message (p : Profile) : ∀ (s : Str) (k : Nat) (opens : List Nat) (e : CompileError),
    Reference.walk p k opens s = .err e → utf8Len e.reason.toList ≤ 162
  | [], k, opens, e, h => by
    unfold Reference.walk at h
    split at h
    · cases h
    · rename_i j _
      cases h
      dsimp only
      rw [message_append, message_append]
      have h1 : utf8Len "Missing close parenthesis for group started at index ".toList = 53 := by decide
      have h2 : utf8Len ".".toList = 1 := by decide
      have := utf8Len_number 19 ((2 ^ 64 - j) % 2 ^ 64) (Nat.lt_of_lt_of_le (Nat.mod_lt _ (by decide)) (by decide))
      omega
  | c :: s, k, opens, e, h => by
    unfold Reference.walk at h
    split at h
    · split at h
      · cases h
      · exact walk_message p s _ _ e h
    · split at h
      · split at h
        · cases h
          decide
        · exact walk_message p s _ _ e h
      · split at h
        · exact walk_message p s _ _ e h
        · cases h

theorem read_message (p : Profile) (text : Str) (e : CompileError) (h : Reference.read p text = .err e) :
    utf8Len e.reason.toList ≤ max 162 (33 + utf8Len text) := by
  unfold Reference.read at h
  split at h
  · have := walk_message p _ _ _ e h; omega
  · rename_i v body hv
    have hlen : utf8Len v + 3 ≤ utf8Len text := by
      obtain ⟨rfl, _⟩ := Reference.verb_some.1 hv
      have h1 : utf8Len ['(', '*'] = 2 := rfl
      have h2 : ∀ s, utf8Len (')' :: s) = 1 + utf8Len s := fun s => rfl
      simp only [Context.utf8Len_append, h1, h2]
      omega
    split at h
    · have := walk_message p _ _ _ e h; omega
    · have h3 : utf8Len " at index 2".toList = 11 := by decide
      have h4 : (String.ofList v).toList = v := String.toList_ofList
      split at h
      · cases h
        have h1 : utf8Len "Unsupported control verb ".toList = 25 := by decide
        dsimp only
        rw [message_append, message_append, h1, h3, h4]
        omega
      · cases h
        have h1 : utf8Len "Unknown control verb ".toList = 21 := by decide
        dsimp only
        rw [message_append, message_append, h1, h3, h4]
        omega

theorem disagreement_message (j id : Nat) (single : Bool) (old : Reference.Noted) (hj : j < 2 ^ 32) (hid : id < 2 ^ 32)
    (ho : old.index < 2 ^ 32) : utf8Len (Reference.disagreement j id single old).toList ≤ 172 := by
  unfold Reference.disagreement
  have n1 := utf8Len_number 9 j (by omega)
  have n2 := utf8Len_number 9 id (by omega)
  have n3 := utf8Len_number 9 old.index (by omega)
  have h1 : utf8Len "Expression (index ".toList = 18 := by decide
  have h2 : utf8Len ") with match ID ".toList = 16 := by decide
  have h3 : utf8Len " ".toList = 1 := by decide
  have h4 : utf8Len (if single then "specified " else "did not sepcify ").toList ≤ 16 := by cases single <;> decide
  have h5 : utf8Len " SINGLEMATCH whereas previous expression (index ".toList = 48 := by decide
  have h6 : utf8Len ") with the same match ID did".toList = 28 := by decide
  have h7 : utf8Len (if old.single then " not." else ".").toList ≤ 5 := by cases old.single <;> decide
  simp only [message_append]
  omega

theorem addAll_message (p : Profile) (g : Grey) : ∀ (xs : List (Str × Flags × Nat)) (seen : List Reference.Noted) (j : Nat)
    (e : CompileError), (∀ x ∈ seen, x.index < 2 ^ 32) → j + xs.length ≤ 2 ^ 32 → (∀ x ∈ xs, x.2.2 < 2 ^ 32) →
    Reference.addAll p g seen j xs = .err e → utf8Len e.reason.toList ≤ max 172 (33 + g.limitPatternLength)
  | [], _, _, _, _, _, _, h => nomatch h
  | (text, flags, id) :: xs, seen, j, e, hseen, hj, hid, h => by
    rw [List.length_cons] at hj
    have hid0 := hid _ (List.mem_cons_self ..)
    dsimp only at hid0
    rw [Reference.addAll] at h
    have key : (∀ e, Reference.add p g seen j text flags id = .err e →
          utf8Len e.reason.toList ≤ max 172 (33 + g.limitPatternLength)) ∧
        (∀ seen', Reference.add p g seen j text flags id = .ok seen' → ∀ x ∈ seen', x.index < 2 ^ 32) := by
      unfold Reference.add
      dsimp only
      split
      · exact ⟨fun e h => by cases h; exact Nat.le_trans (by dsimp only; decide : _ ≤ 172) (Nat.le_max_left ..), (fun _ h => nomatch h)⟩
      split
      · exact ⟨fun e h => by cases h; exact Nat.le_trans (by dsimp only; decide : _ ≤ 172) (Nat.le_max_left ..), (fun _ h => nomatch h)⟩
      split
      · rename_i e' hr
        refine ⟨fun e h => ?_, (fun _ h => nomatch h)⟩
        cases h
        have := read_message p text e' hr
        dsimp only
        omega
      · exact ⟨(fun _ h => nomatch h), (fun _ h => nomatch h)⟩
      · exact ⟨(fun _ h => nomatch h), (fun _ h => nomatch h)⟩
      · split
        · split
          · refine ⟨(fun _ h => nomatch h), fun seen' h x hx => ?_⟩
            cases h
            rcases List.mem_append.1 hx with hx | hx
            · exact hseen x hx
            · rw [List.mem_singleton.1 hx]; show j < _; omega
          · rename_i old hf
            split
            · exact ⟨(fun _ h => nomatch h), fun seen' h => by cases h; exact hseen⟩
            · split
              · exact ⟨(fun _ h => nomatch h), (fun _ h => nomatch h)⟩
              · refine ⟨fun e h => ?_, (fun _ h => nomatch h)⟩
                cases h
                exact Nat.le_trans (disagreement_message j id _ old (by omega) hid0
                  (hseen old (List.mem_of_find?_eq_some hf))) (Nat.le_max_left ..)
        · exact ⟨(fun _ h => nomatch h), fun seen' h => by cases h; exact hseen⟩
    split at h
    · rename_i seen' ha
      exact addAll_message p g xs seen' (j + 1) e (key.2 _ ha) (by omega) (fun x hx => hid x (List.mem_cons_of_mem _ hx)) h
    · rename_i ha; cases h; exact key.1 _ ha
    · cases h
    · cases h

/-- C112: no message is longer than 172 bytes, but for those that repeat a control verb: these have at most 33 bytes more than a
pattern may have. The ids are 32-bit numbers. -/
theorem C112_message (p : Profile) (es : List Str) (fs : List Flags) (ids : List Nat) (mode : Mode) (g : Grey) (hs : Sane g)
    (hid : ∀ id ∈ ids, id < 2 ^ 32) : raisedBy p es fs ids mode g ≤ max 172 (33 + g.limitPatternLength) := by
  have hr : raisedBy p es fs ids mode g ≤ raisedBy .release es fs ids mode g := by
    cases p with
    | release => exact Nat.le_refl _
    | debug =>
      unfold raisedBy
      split
      · exact Nat.le_refl _
      split
      · exact Nat.le_refl _
      · exact raised_debug ..
  refine Nat.le_trans hr ?_
  have hc := C105_reference .release es fs ids mode g hs
  by_cases he : es = []
  · subst he
    exact Nat.le_trans (by show utf8Len _ ≤ 172; decide : _ ≤ 172) (Nat.le_max_left ..)
  by_cases hn : es.length > g.limitPatternCount
  · unfold raisedBy
    rw [if_neg (by simpa using he), if_pos hn]
    exact Nat.le_trans (by decide : _ ≤ 172) (Nat.le_max_left ..)
  have hz : es.zip (fs.zip ids) = izip es fs ids := (izip_eq ..).symm
  have hlen : 0 + (izip es fs ids).length ≤ 2 ^ 32 := by
    have := hs.count
    rw [← hz, List.length_zip]
    omega
  have hm : raisedBy .release es fs ids mode g = Memory.message (compileMultiInt .release es fs ids mode g) := by
    rw [compileMultiInt_eq]
    unfold raisedBy compileNg
    rw [if_neg (by simpa using he), if_neg hn, if_neg (by simpa using he), if_neg hn, raised_release _ _ _ hlen]
    dsimp only
    cases addAll .release 0 (Ng.new ⟨mode.isStreaming, mode.isVectored, g⟩ es.length mode.somPrecision) (izip es fs ids) <;> rfl
  rw [hm, hc]
  unfold Reference.compile
  rw [if_neg he, if_neg hn, hz]
  cases ha : Reference.addAll .release g [] 0 (izip es fs ids) with
  | err e =>
    refine addAll_message .release g (izip es fs ids) [] 0 e (fun x hx => nomatch hx) hlen (fun x hx => ?_) ha
    rw [← hz] at hx
    exact hid _ (List.of_mem_zip (List.of_mem_zip hx).2).2
  | ok x => exact Nat.zero_le _
  | panic m => exact Nat.zero_le _
  | timeout => exact Nat.zero_le _

example : raisedBy .release ["(*LIMIT_MATCH=1)a".toList] [⟨0⟩] [1] .block Grey.default = 49 := by decide +kernel

/-- C112 in numbers: `compile_multi` on `n` patterns never has more than `5 * n + 144196` elements alive at once. -/
theorem C112_default (p : Profile) (es : List Str) (fs : List Flags) (ids : List Nat) (mode : Mode) (hid : ∀ id ∈ ids, id < 2 ^ 32)
    (lim live : Nat) (h : live + 5 * es.length + 144196 ≤ lim) :
    ∃ l, Memory.compileMultiInt p es fs ids mode Grey.default lim live = some (compileMulti p es fs ids mode, l) ∧
      LiveAfter live l (compileMulti p es fs ids mode) := by
  refine C112_enough p es fs ids mode Grey.default lim live ?_
  have h1 := C112_message p es fs ids mode Grey.default sane_default hid
  have h2 : (lengths Grey.default es).foldr max 0 ≤ 16000 := by
    unfold lengths
    clear h h1
    induction es with
    | nil => exact Nat.zero_le _
    | cons e es ih =>
      by_cases hl : utf8Len e ≤ Grey.default.limitPatternLength
      · rw [List.filter_cons_of_pos (by simpa using hl), List.map_cons, List.foldr_cons]
        have h3 : e.length ≤ utf8Len e := length_le_utf8Len e
        have h4 : Grey.default.limitPatternLength = 16000 := rfl
        omega
      · rw [List.filter_cons_of_neg (by simpa using hl)]
        exact ih
  unfold memoryFor
  have h3 : Grey.default.limitPatternLength = 16000 := rfl
  have h4 : Grey.default.smallWriteLargestBuffer = 70 := rfl
  rw [h3] at h1
  rw [h4]
  omega

example : (∀ id ∈ [1, 2], id < 2 ^ 32) ∧ 0 + 5 * ["a".toList, "(b".toList].length + 144196 ≤ 144206 := by decide

/-! ## Trees and graphs -/

/-- C112: parsing needs at most two elements for each character and two more, and its message; it leaves the tree, which has at
most that many elements, or the message. -/
theorem C112_parse (p : Profile) (ptr : Str) (mode : ParseMode) (lim live : Nat)
    (h : live + 2 * ptr.length + 2 + (match parse p ptr mode with | .err e => utf8Len e.reason.toList | _ => 0) ≤ lim) :
    ∃ l, Memory.parse p ptr mode lim live = some (parse p ptr mode, l) ∧
      match parse p ptr mode with
      | .ok (c, _) => l = live + ownedComponent c ∧ ownedComponent c ≤ 2 * ptr.length + 2
      | .err e => l = live + utf8Len e.reason.toList
      | .panic _ => l = live
      | .timeout => True := by
  obtain ⟨l, e, hl⟩ := Memory.parse_uses p ptr mode _ (Nat.le_refl _) lim live (by
    have : Memory.message (parse p ptr mode) = (match parse p ptr mode with | .err e => utf8Len e.reason.toList | _ => 0) := by
      cases parse p ptr mode <;> rfl
    omega)
  refine ⟨l, e, ?_⟩
  cases hp : parse p ptr mode with
  | ok x => rw [hp] at hl; exact ⟨hl, Memory.parse_owned hp⟩
  | err x => rw [hp] at hl; exact hl
  | panic m => rw [hp] at hl; exact hl
  | timeout => trivial

example : (match Memory.parse .release "a(b|c)".toList ParseMode.default 14 0 with
    | some (.ok (c, _), l) => decide (l = 7 ∧ ownedComponent c = 7)
    | _ => false) = true ∧
    (Memory.parse .release "a(b|c)".toList ParseMode.default 6 0).isNone = true := by decide +kernel

/-- C112: building the graph of a tree needs one element for each of its leaves and eighteen more, and leaves the graph. -/
theorem C112_graph (p : Profile) (pe : ParsedExpression) (lim live : Nat) (h : live + 18 + (leaves pe.component).length ≤ lim) :
    ∃ l, Memory.buildGraph (ε := CompileError) p pe lim live = some (buildGraph p pe, l) ∧
      match buildGraph (ε := CompileError) p pe with
      | .ok b => l = live + ownedHolder b.graph ∧ ownedHolder b.graph ≤ 18 + (leaves pe.component).length
      | .panic _ => l = live
      | _ => True := by
  have hu := Memory.buildGraph_uses (ε := CompileError) p pe _ (Nat.le_refl _)
  obtain ⟨l, e, hl⟩ := hu lim live (by omega)
  refine ⟨l, e, ?_⟩
  cases hb : buildGraph (ε := CompileError) p pe with
  | ok x =>
    rw [hb] at hl hu
    exact ⟨hl, Memory.Uses.bound (m := Memory.buildGraph (ε := CompileError) p pe) hu (Memory.tame_buildGraph p pe) (Nat.zero_le _)⟩
  | panic m => rw [hb] at hl; exact hl
  | _ => trivial

example : (match ParsedExpression.new .release 0 "a(b|c)".toList ⟨0⟩ 7 with
    | .ok pe =>
      decide ((leaves pe.component).length = 3) && (match Memory.buildGraph (ε := CompileError) .release pe 21 0 with
        | some (.ok b, l) => decide (l = ownedHolder b.graph ∧ 10 ≤ l)
        | _ => false)
      && (Memory.buildGraph (ε := CompileError) .release pe 9 0).isNone
    | _ => false) = true := by decide +kernel

end Rescan
