import Verif.Proofs.Report
/-! # C23-C26, C65: report manager and errors -/
namespace Rescan

open Spec

namespace ReportManager

/-! ## C23 -/

/-- C23 (refinement): over any history of `get_internal_id` calls on a fresh manager the answers are
those of the abstract numbering service with the configured limit, refusals being resource-limit
errors; nothing panics, unless the limit is above 2^32 and so is the number of different reports (see
`C23_panics`). -/
theorem C23_refines (g : Grey) (rs : List Report)
    (hl : g.limitReportCount ≤ 2 ^ 32 ∨ AtMost (2 ^ 32) rs) :
    ∃ rm, runIds (new g) rs = .ok (rm, (assignAll g.limitReportCount [] rs).2.map (fun a =>
        match a with
        | some i => .ok i
        | none => .error ⟨.resourceLimit, "Resource limit exceeded.", none⟩)) ∧
      ∀ i r, (assignAll g.limitReportCount [] rs).1[i]? = some r →
        rm.getReport (ε := Empty) i = .ok r := by
  obtain ⟨rm, h1, h2, h3, h4⟩ := runIds_spec rs (new g) (idInv_new g) (by simpa [new] using hl)
  refine ⟨rm, ?_, ?_⟩
  · rw [h1]
    congr 2
  · intro i r hr
    unfold getReport
    rw [h3]
    show Outcome.expect ((assignAll g.limitReportCount [] rs).1[i]?) _ = _
    rw [hr]; rfl

example := C23_refines { Grey.default with limitReportCount := 2 } [⟨5⟩, ⟨7⟩, ⟨5⟩, ⟨9⟩] (.inl (by decide))

/-- C23 (observable): for any history on a fresh manager, with answers `as`:
the same report always gets the same id and different reports different ids; `get_report` at the end
inverts every id handed out; the ids handed out are exactly `0..k-1` where `k` is the number of
distinct reports accepted; a request is refused iff the limit's worth of distinct reports has been
accepted before it and it is none of those. -/
theorem C23_ids (g : Grey) (rs : List Report)
    (hl : g.limitReportCount ≤ 2 ^ 32 ∨ AtMost (2 ^ 32) rs) :
    ∃ rm as, runIds (new g) rs = .ok (rm, as) ∧ as.length = rs.length ∧
      (∀ (m n a b : Nat), as[m]? = some (.ok a) → as[n]? = some (.ok b) → (a = b ↔ rs[m]? = rs[n]?)) ∧
      (∀ (m a : Nat) r, as[m]? = some (.ok a) → rs[m]? = some r → rm.getReport (ε := Empty) a = .ok r) ∧
      (∃ accepted : List Report, accepted.Nodup ∧
        (∀ r, r ∈ accepted ↔ ∃ m : Nat, rs[m]? = some r ∧ ∃ a, as[m]? = some (.ok a)) ∧
        ∀ a : Nat, (∃ m : Nat, as[m]? = some (.ok a)) ↔ a < accepted.length) := by
  obtain ⟨rm, h1, h2⟩ := C23_refines g rs hl
  refine ⟨rm, _, h1, ?_, ?_, ?_, ?_⟩
  · rw [List.length_map, assignAll_length]
  all_goals
    have hans : ∀ (m a : Nat), ((assignAll g.limitReportCount [] rs).2.map (fun a =>
        match a with
        | some i => (Except.ok i : Except CompileError Nat)
        | none => .error ⟨.resourceLimit, "Resource limit exceeded.", none⟩))[m]? = some (.ok a) ↔
        (assignAll g.limitReportCount [] rs).2[m]? = some (some a) := by
      intro m a
      rw [List.getElem?_map]
      cases (assignAll g.limitReportCount [] rs).2[m]? with
      | none => simp
      | some x => cases x <;> simp
    have hlt : ∀ (m a : Nat), (assignAll g.limitReportCount [] rs).2[m]? = some (some a) →
        ∃ r, rs[m]? = some r ∧ (assignAll g.limitReportCount [] rs).1[a]? = some r := by
      intro m a h
      have hm : m < rs.length := by
        rw [← assignAll_length g.limitReportCount rs []]
        rw [List.getElem?_eq_some_iff] at h; exact h.1
      exact ⟨rs[m], List.getElem?_eq_getElem hm,
        assignAll_some _ rs [] m a _ (List.getElem?_eq_getElem hm) h⟩
    have hnd : (assignAll g.limitReportCount [] rs).1.Nodup := assignAll_nodup _ rs [] List.nodup_nil
  · intro m n a b ha hb
    rw [hans] at ha hb
    obtain ⟨r, h3, h4⟩ := hlt m a ha
    obtain ⟨r', h5, h6⟩ := hlt n b hb
    rw [h3, h5, Option.some.injEq]
    constructor
    · intro e; subst e; rw [h4] at h6; injection h6
    · intro e; subst e
      rw [List.getElem?_eq_some_iff] at h4 h6
      obtain ⟨h7, h8⟩ := h4; obtain ⟨h9, h10⟩ := h6
      exact (List.getElem_inj hnd).1 (h8.trans h10.symm)
  · intro m a r ha hr
    rw [hans] at ha
    obtain ⟨r', h3, h4⟩ := hlt m a ha
    rw [hr] at h3; injection h3 with h3; subst h3
    exact h2 a r h4
  · refine ⟨(assignAll g.limitReportCount [] rs).1, hnd, ?_, ?_⟩
    · intro r
      rw [assignAll_mem]
      simp only [List.not_mem_nil, false_or]
      constructor
      · rintro ⟨m, h3, a, h4⟩; exact ⟨m, h3, a, (hans m a).2 h4⟩
      · rintro ⟨m, h3, a, h4⟩; exact ⟨m, h3, a, (hans m a).1 h4⟩
    · intro a
      constructor
      · rintro ⟨m, h3⟩
        obtain ⟨r, -, h4⟩ := hlt m a ((hans m a).1 h3)
        rw [List.getElem?_eq_some_iff] at h4; exact h4.1
      · intro h3
        rcases assignAll_range _ rs [] a h3 with h4 | h4
        · simp at h4
        · obtain ⟨m, hm⟩ := List.mem_iff_getElem?.1 h4
          exact ⟨m, (hans m a).2 hm⟩

example := C23_ids { Grey.default with limitReportCount := 2 } [⟨5⟩, ⟨7⟩, ⟨5⟩, ⟨9⟩] (.inl (by decide))

/-- C23 (limit): after any history `rs`, one more request `r` is refused iff `limit` distinct reports
have been accepted and `r` is not one of them; a refusal is the resource-limit error and changes
nothing. -/
theorem C23_limit (g : Grey) (rs : List Report) (r : Report)
    (hl : g.limitReportCount ≤ 2 ^ 32 ∨ AtMost (2 ^ 32) (rs ++ [r])) :
    ∃ rm as rm' a, runIds (new g) rs = .ok (rm, as) ∧ rm.getInternalId r = .ok (rm', a) ∧
      ∃ accepted : List Report, accepted.Nodup ∧
        (∀ x, x ∈ accepted ↔ ∃ m : Nat, rs[m]? = some x ∧ ∃ i, as[m]? = some (.ok i)) ∧
        (a = .error ⟨.resourceLimit, "Resource limit exceeded.", none⟩ ∨ ∃ i, a = .ok i) ∧
        ((∃ e, a = .error e) ↔ g.limitReportCount ≤ accepted.length ∧ r ∉ accepted) ∧
        accepted.length ≤ g.limitReportCount ∧
        ((∃ e, a = .error e) → rm'.reportIds = rm.reportIds) := by
  obtain ⟨rm, h1, h2, h3, h4⟩ := runIds_spec rs (new g) (idInv_new g) (by
    rcases hl with hl | hl
    · exact .inl hl
    · exact .inr fun d hd hsub => hl d hd fun x hx => by
        have := hsub x hx; simp [new] at this; simp [this])
  have h3' : rm.reportIds = (assignAll g.limitReportCount [] rs).1 := h3
  have h4' : rm.limitReportCount = g.limitReportCount := h4
  obtain ⟨rm', g1, g2, g3, -⟩ := getInternalId_spec rm h2 r (by
    by_cases hm : r ∈ rm.reportIds
    · exact .inr (.inl hm)
    rcases hl with hl | hl
    · exact .inl (by rw [h4']; exact hl)
    · have := hl (rm.reportIds ++ [r]) (List.nodup_append.2 ⟨h2.1, by simp, fun a ha b hb e => hm (by
        simp at hb; rw [← hb, ← e]; exact ha)⟩) (fun x hx => by
          rw [List.mem_append] at hx ⊢
          rcases hx with hx | hx
          · rw [h3', assignAll_mem] at hx
            rcases hx with hx | ⟨j, hj, -⟩
            · simp at hx
            · exact .inl (List.mem_iff_getElem?.2 ⟨j, hj⟩)
          · exact .inr hx)
      rw [List.length_append, List.length_singleton] at this
      exact .inr (.inr (by omega)))
  refine ⟨rm, _, rm', _, h1, g1, rm.reportIds, h2.1, ?_, ?_, ?_, ?_, ?_⟩
  · intro x
    rw [h3', assignAll_mem]
    simp only [List.not_mem_nil, false_or]
    have hans : ∀ (m a : Nat), ((assignAll g.limitReportCount [] rs).2.map ofAnswer)[m]? = some (.ok a) ↔
        (assignAll g.limitReportCount [] rs).2[m]? = some (some a) := by
      intro m a
      rw [List.getElem?_map]
      cases (assignAll g.limitReportCount [] rs).2[m]? with
      | none => simp
      | some x => cases x <;> simp [ofAnswer]
    constructor
    · rintro ⟨m, h5, a, h6⟩; exact ⟨m, h5, a, (hans m a).2 h6⟩
    · rintro ⟨m, h5, a, h6⟩; exact ⟨m, h5, a, (hans m a).1 h6⟩
  · cases (assign rm.limitReportCount rm.reportIds r).2 with
    | none => exact Or.inl rfl
    | some i => exact Or.inr ⟨i, rfl⟩
  · rw [h4']
    unfold assign
    by_cases hm : r ∈ rm.reportIds
    · rw [if_pos hm]; simp [hm, ofAnswer]
    · rw [if_neg hm]
      by_cases hlen : g.limitReportCount ≤ rm.reportIds.length
      · rw [if_pos hlen]; simp [hm, hlen, ofAnswer]
      · rw [if_neg hlen]; simp [hlen, ofAnswer]
  · rw [h3']; exact assignAll_len_le _ _ _ (Nat.zero_le _)
  · rintro ⟨e, he⟩
    rw [g3]
    rw [h4'] at he ⊢
    unfold assign at he ⊢
    by_cases hm : r ∈ rm.reportIds
    · rw [if_pos hm]
    · rw [if_neg hm] at he ⊢
      by_cases hlen : g.limitReportCount ≤ rm.reportIds.length
      · rw [if_pos hlen]
      · rw [if_neg hlen] at he; simp [ofAnswer] at he

example : Grey.default.limitReportCount ≤ 2 ^ 32 := by decide
/-- Two different reports are at most 2^32, whatever the limit. -/
example : AtMost (2 ^ 32) [(⟨5⟩ : Report), ⟨7⟩, ⟨5⟩] := fun d hd h =>
  Nat.le_trans (nodup_length_le hd h) (by decide)
example := C23_limit { Grey.default with limitReportCount := 2 ^ 40 } [⟨5⟩, ⟨7⟩] ⟨5⟩
  (.inr fun _ hd h => Nat.le_trans (nodup_length_le hd h) (by decide))

/-- C23: asking for ids panics exactly if the limit allows more than 2^32 different reports and there are more. -/
theorem C23_panics (g : Grey) (rs : List Report) :
    (runIds (new g) rs).isPanic = true ↔ ¬ (g.limitReportCount ≤ 2 ^ 32 ∨ AtMost (2 ^ 32) rs) := by
  constructor
  · intro h hl
    obtain ⟨rm, h1, -⟩ := C23_refines g rs hl
    rw [h1] at h
    cases h
  · intro h
    refine runIds_panics rs (new g) (idInv_new g) (Nat.zero_le _) ?_ fun hat => h (.inr (by simpa [new] using hat))
    show 2 ^ 32 < g.limitReportCount
    exact Nat.lt_of_not_le fun hle => h (.inl hle)

/-- With such a limit the first 2^32 + 1 reports are too many. -/
example : (runIds (new { Grey.default with limitReportCount := 2 ^ 33 })
    ((List.range (2 ^ 32 + 1)).map Report.mk)).isPanic = true := by
  rw [C23_panics]
  rintro (h | h)
  · exact absurd h (by decide)
  · have := h _ (List.Pairwise.map _ (fun _ _ h e => h (by injection e)) List.nodup_range) fun _ hx => hx
    rw [List.length_map, List.length_range] at this
    omega

example : (match runIds (new { Grey.default with limitReportCount := 2 }) [⟨5⟩, ⟨7⟩, ⟨5⟩, ⟨9⟩] with
    | .ok (_, as) => as.map (fun a => match a with | .ok i => some i | .error _ => none)
    | _ => []) = [some 0, some 1, some 0, none] := by decide

/-! ## C24 -/

theorem take_mem_dropLast {l : List Nat} {n x : Nat} (hn : n < l.length) (h : x ∈ l.take n) : x ∈ l.dropLast := by
  rw [List.dropLast_eq_take]
  rw [List.mem_take_iff_getElem] at h ⊢
  obtain ⟨i, hi, e⟩ := h
  exact ⟨i, by omega, e⟩

/-- C24: over any history of `get_exhaustible_key` calls on a fresh manager, in which not all of 2^32 different
ids come before the last call, there is no panic, equal ids get equal keys, different ids different keys, and the keys are `0..k-1` for `k`
distinct ids. -/
theorem C24_keys (g : Grey) (ids : List Nat) (hn : AtMost (2 ^ 32 - 1) ids.dropLast) :
    ∃ rm ks, runKeys (new g) ids = .ok (rm, ks) ∧ ks.length = ids.length ∧
      (∀ (m n : Nat), m < ids.length → n < ids.length → (ks[m]? = ks[n]? ↔ ids[m]? = ids[n]?)) ∧
      ∃ distinct : List Nat, distinct.Nodup ∧ (∀ x, x ∈ distinct ↔ x ∈ ids) ∧
        ∀ k, k ∈ ks ↔ k < distinct.length := by
  obtain ⟨rm, ks, h1, h2, h3⟩ := runKeys_spec ids (new g) [] (keyInv_new g) (fun n hn' d hd hsub =>
    hn d hd fun x hx => take_mem_dropLast hn' (by simpa using hsub x hx))
  have hnd := assignAll_nodup (2 ^ 32) ids ([] : List Nat) List.nodup_nil
  have hlen : ks.length = ids.length := by
    have := assignAll_length (2 ^ 32) ids ([] : List Nat)
    rw [h2, List.length_map] at this; exact this
  have hat : ∀ (m : Nat) (hm : m < ids.length) (hm' : m < ks.length),
      (assignAll (2 ^ 32) [] ids).1[ks[m]]? = some ids[m] := by
    intro m hm hm'
    apply assignAll_some _ ids [] m _ _ (List.getElem?_eq_getElem hm)
    rw [h2, List.getElem?_map, List.getElem?_eq_getElem hm']; rfl
  refine ⟨rm, ks, h1, hlen, ?_, (assignAll (2 ^ 32) [] ids).1, hnd, ?_, ?_⟩
  · intro m n hm hn'
    have hm' : m < ks.length := by omega
    have hn'' : n < ks.length := by omega
    rw [List.getElem?_eq_getElem hm, List.getElem?_eq_getElem hn', List.getElem?_eq_getElem hm',
      List.getElem?_eq_getElem hn'', Option.some.injEq, Option.some.injEq]
    have e1 := hat m hm hm'
    have e2 := hat n hn' hn''
    constructor
    · intro e; rw [e, e2] at e1; injection e1 with e1; exact e1.symm
    · intro e; rw [e] at e1
      rw [List.getElem?_eq_some_iff] at e1 e2
      obtain ⟨h7, h8⟩ := e1; obtain ⟨h9, h10⟩ := e2
      exact (List.getElem_inj hnd).1 (h8.trans h10.symm)
  · intro x
    rw [assignAll_mem]
    simp only [List.not_mem_nil, false_or]
    constructor
    · rintro ⟨m, h5, -⟩; exact List.mem_iff_getElem?.2 ⟨m, h5⟩
    · intro hx
      obtain ⟨m, hm⟩ := List.mem_iff_getElem?.1 hx
      have hlt : m < ks.length := by
        rw [List.getElem?_eq_some_iff] at hm; rw [hlen]; exact hm.1
      exact ⟨m, hm, ks[m], by rw [h2, List.getElem?_map, List.getElem?_eq_getElem hlt]; rfl⟩
  · intro k
    constructor
    · intro hk
      obtain ⟨m, hm⟩ := List.mem_iff_getElem?.1 hk
      rw [List.getElem?_eq_some_iff] at hm
      obtain ⟨hm', e⟩ := hm
      have := hat m (by omega) hm'
      rw [e, List.getElem?_eq_some_iff] at this
      exact this.1
    · intro hk
      rcases assignAll_range _ ids [] k hk with h4 | h4
      · simp at h4
      · rw [h2] at h4; simpa using h4

example := C24_keys Grey.default [40, 7, 40, 9] fun _ hd h => Nat.le_trans (nodup_length_le hd h) (by decide)

/-- C24: asking for keys panics exactly if 2^32 different ids, which is all of them, come before the last call;
whether that one is for a new id does not matter. -/
theorem C24_panics (g : Grey) (ids : List Nat) :
    (runKeys (new g) ids).isPanic = true ↔ ¬ AtMost (2 ^ 32 - 1) ids.dropLast := by
  constructor
  · intro h hn
    obtain ⟨rm, ks, h1, -⟩ := C24_keys g ids hn
    rw [h1] at h
    cases h
  · intro h
    have hne : ids ≠ [] := fun e => h fun d hd hsub => by
      subst e
      exact Nat.le_trans (nodup_length_le hd hsub) (by decide)
    refine runKeys_panics ids (new g) [] (keyInv_new g) ⟨ids.length - 1, ?_, ?_⟩
    · have := List.length_pos_iff.2 hne; omega
    · rw [List.nil_append, ← List.dropLast_eq_take]; exact h

/-- All ids, and then one of them again. -/
example : (runKeys (new Grey.default) (List.range (2 ^ 32) ++ [5])).isPanic = true := by
  rw [C24_panics, List.dropLast_concat]
  intro h
  have := h _ List.nodup_range fun _ hx => hx
  rw [List.length_range] at this
  omega

example : (match runKeys (new Grey.default) [40, 7, 40, 9] with
    | .ok (_, ks) => ks | _ => []) = [0, 1, 0, 2] := by decide

/-! ## C25 -/

/-- C25: after any history `es` of registrations on a fresh manager, registering `(id, ext)`:
* fails iff an earlier **successful** registration of `id` had the other SINGLEMATCH setting, which is
  the case iff the **first** registration of `id` had it;
* on failure changes nothing;
* afterwards the database is globally exhaustible iff every successful registration, this one
  included, was SINGLEMATCH. -/
theorem C25_registration (g : Grey) (es : List (Nat × ExternalReportInfo)) (id : Nat)
    (ext : ExternalReportInfo) :
    let before := runReg (new g) es
    let after := before.1.registerExtReport id ext
    let ok := succeeded es before.2
    ((∃ e, after.2 = .error e) ↔ ∃ i, (id, i) ∈ ok ∧ i.highlander ≠ ext.highlander) ∧
    ((∃ e, after.2 = .error e) ↔ ∃ i, firstFor es id = some i ∧ i.highlander ≠ ext.highlander) ∧
    ((∃ e, after.2 = .error e) → after.1 = before.1) ∧
    (before.1.globalExhaust = true ↔ ∀ e ∈ ok, e.2.highlander = true) ∧
    (after.1.globalExhaust = true ↔ (∀ e ∈ ok, e.2.highlander = true) ∧
      (ext.highlander = true ∨ ∃ e, after.2 = .error e)) := by
  intro before after ok
  have hinv : RegInv before.1 ok := by
    have := runReg_inv es (new g) [] (regInv_new g)
    simpa using this
  have hfirst : firstFor ok id = firstFor es id := by
    have := firstFor_succeeded es (new g) [] (regInv_new g) id
    simpa using this
  have hbefore : before.1.globalExhaust = true ↔ ∀ e ∈ ok, e.2.highlander = true := by
    rw [hinv.exhaust, List.all_eq_true]
  by_cases hok : ∀ i, firstFor ok id = some i → i.highlander = ext.highlander
  · obtain ⟨h1, h2⟩ := register_ok before.1 ok hinv id ext hok
    have hno : ¬ ∃ e, after.2 = .error e := by
      rintro ⟨e, he⟩
      have : after.2 = .ok () := h1
      rw [this] at he; cases he
    refine ⟨⟨fun h => absurd h hno, ?_⟩, ⟨fun h => absurd h hno, ?_⟩, fun h => absurd h hno, hbefore, ?_⟩
    · rintro ⟨i, hi, hne⟩
      cases hf : firstFor ok id with
      | none => exact absurd rfl (firstFor_none hf _ hi)
      | some j =>
        have := hinv.agree _ hi j hf
        have h3 := hok j hf
        rw [this] at h3; exact absurd h3 hne
    · rintro ⟨i, hi, hne⟩
      exact absurd (hok i (hfirst.trans hi)) hne
    · have hx : after.1.globalExhaust = (ok ++ [(id, ext)]).all (fun e => e.2.highlander) := h2.exhaust
      rw [hx, List.all_append, Bool.and_eq_true, List.all_eq_true]
      simp [hno]
  · have : ∃ i, firstFor ok id = some i ∧ i.highlander ≠ ext.highlander := by
      apply Classical.byContradiction
      intro hx; apply hok; intro i hi
      apply Classical.byContradiction
      intro hne; exact hx ⟨i, hi, hne⟩
    obtain ⟨i, hi, hne⟩ := this
    have h1 : after = _ := register_err before.1 ok hinv id ext i hi hne
    have hyes : ∃ e, after.2 = .error e := ⟨_, by rw [h1]⟩
    refine ⟨⟨fun _ => ⟨i, firstFor_mem hi, hne⟩, fun _ => hyes⟩,
      ⟨fun _ => ⟨i, hfirst ▸ hi, hne⟩, fun _ => hyes⟩, fun _ => by rw [h1], hbefore, ?_⟩
    rw [show after.1 = before.1 by rw [h1], hbefore]
    simp [hyes]

example : ((runReg (new Grey.default) [(4, ⟨true, 0⟩)]).1.registerExtReport 4 ⟨true, 1⟩).2.isOk = true ∧
    ((runReg (new Grey.default) [(4, ⟨true, 0⟩)]).1.registerExtReport 4 ⟨false, 1⟩).2.isOk = false := by decide

/-- C25: the recorded information for an id is that of its first registration. -/
theorem C25_first_recorded (g : Grey) (es : List (Nat × ExternalReportInfo)) (id : Nat) :
    alookup (runReg (new g) es).1.externalIdMap id = firstFor es id := by
  have h1 := (runReg_inv es (new g) [] (regInv_new g)).first id
  have h2 := firstFor_succeeded es (new g) [] (regInv_new g) id
  rw [h1, h2]; rfl

example : ((runReg (new Grey.default) [(4, ⟨true, 0⟩), (4, ⟨false, 1⟩), (5, ⟨true, 2⟩)]).2.map
    (fun r => r.isOk)) = [true, false, true] ∧
    (runReg (new Grey.default) [(4, ⟨true, 0⟩), (4, ⟨false, 1⟩), (5, ⟨true, 2⟩)]).1.globalExhaust
      = true := by decide

/-! ## C65 -/

/-- The conflict message as it should read (spelling and spacing as in the code): each clause states
what the expression it is about did. -/
def truthfulMessage (id : Nat) (new old : ExternalReportInfo) : String :=
  "Expression (index " ++ toString new.firstPatternIndex ++ ") with match ID " ++ toString id ++ " "
    ++ (if new.highlander then "specified " else "did not sepcify ")
    ++ " SINGLEMATCH whereas previous expression (index " ++ toString old.firstPatternIndex
    ++ ") with the same match ID did" ++ (if old.highlander then "." else " not.")

/-- C65, full statement: every refusal carries the truthful message about the first registration. -/
def ConflictMessageTruthful : Prop :=
  ∀ (g : Grey) (es : List (Nat × ExternalReportInfo)) (id : Nat) (ext old : ExternalReportInfo) (e : CompileError),
    firstFor es id = some old → ((runReg (new g) es).1.registerExtReport id ext).2 = .error e →
    e.reason = truthfulMessage id ext old

/-- C65 is false of the code: the witness is two expressions with id 4, the first SINGLEMATCH, the
second not. -/
theorem C65_false : ¬ ConflictMessageTruthful := by
  intro h
  have := h Grey.default [(4, ⟨true, 0⟩)] 4 ⟨false, 1⟩ ⟨true, 0⟩ _ (by decide) rfl
  revert this
  decide +kernel

/-- C65, what holds (missing: the clause about the previous expression, which is always inverted): the
refusal names both expression indices and the id, is right about the new expression, and attaches
the new expression's index. -/
theorem C65_message_partial (g : Grey) (es : List (Nat × ExternalReportInfo)) (id : Nat)
    (ext old : ExternalReportInfo) (e : CompileError) (h1 : firstFor es id = some old)
    (h2 : ((runReg (new g) es).1.registerExtReport id ext).2 = .error e) :
    e.kind = .other ∧ e.index = some ext.firstPatternIndex ∧
    e.reason = truthfulMessage id ext { old with highlander := !old.highlander } := by
  have hinv := runReg_inv es (new g) [] (regInv_new g)
  have hfirst := firstFor_succeeded es (new g) [] (regInv_new g) id
  have hf := hfirst.trans h1
  by_cases hne : old.highlander = ext.highlander
  · have := (register_ok _ _ hinv id ext (fun i hi => by rw [hf] at hi; injection hi with hi; rw [← hi]; exact hne)).1
    rw [this] at h2; cases h2
  · have := register_err _ _ hinv id ext old hf hne
    rw [this] at h2
    injection h2 with h2
    subst h2
    refine ⟨rfl, rfl, ?_⟩
    unfold truthfulMessage
    show conflictMessage id ext old = _
    unfold conflictMessage
    cases old.highlander <;> simp

example : firstFor [(4, (⟨true, 0⟩ : ExternalReportInfo))] 4 = some ⟨true, 0⟩ ∧
    ∃ e, ((runReg (new Grey.default) [(4, ⟨true, 0⟩)]).1.registerExtReport 4 ⟨false, 1⟩).2 = .error e :=
  ⟨by decide, _, rfl⟩

end ReportManager

/-! ## C26 -/

namespace CompileError

/-- C26: construction, and attaching an index. -/
theorem C26_construct (p : Profile) (kind : ErrorKind) (why : String) (i : Nat) :
    (new kind why).kind = kind ∧ (new kind why).reason = why ∧ (new kind why).index = none ∧
    (new kind why).setExpressionIndex p i = .ok ⟨kind, why, some i⟩ := by
  refine ⟨rfl, rfl, rfl, ?_⟩
  cases p <;> rfl

/-- C26: attaching an index to an error that has one panics in debug builds; in release builds it
replaces the index and keeps kind and reason. -/
theorem C26_attach_again (e : CompileError) (i j : Nat) (h : e.index = some j) :
    (e.setExpressionIndex .debug i).isPanic = true ∧
    e.setExpressionIndex .release i = .ok ⟨e.kind, e.reason, some i⟩ := by
  unfold setExpressionIndex rdebugAssert
  rw [h]; exact ⟨rfl, rfl⟩

example := C26_attach_again (withIndex 3 "x") 5 3 rfl

/-- C26: the display text. -/
theorem C26_display (e : CompileError) :
    (e.index = none → e.display = e.reason) ∧
    (∀ i, e.index = some i → e.display = e.reason ++ " in expression " ++ toString i) := by
  unfold display
  exact ⟨fun h => by rw [h], fun i h => by rw [h]⟩

example : (CompileError.mk .parse "Unmatched parentheses" none).display = "Unmatched parentheses" ∧
    (CompileError.mk .parse "Unmatched parentheses" (some 12)).display = "Unmatched parentheses in expression 12" := by
  decide +kernel

/-- C26: with the index known, the display determines the reason. -/
theorem C26_display_determines (e f : CompileError) (hi : e.index = f.index)
    (h : e.display = f.display) : e.reason = f.reason := by
  unfold display at h
  rw [← hi] at h
  cases he : e.index with
  | none => rw [he] at h; exact h
  | some i =>
    rw [he] at h
    simp only at h
    have := congrArg String.toList h
    simp only [String.toList_append, List.append_assoc] at this
    exact String.toList_inj.1 (List.append_cancel_right this)

example : (withIndex 3 "x").index = some 3 ∧ (withIndex 3 "x").display = "x in expression 3" := by
  decide +kernel

end CompileError
end Rescan
