import Verif.Proofs.Work
import Verif.Props.CallStack
/-! # Work: parsing, the trie, the graph -/
namespace Rescan.Work
open Spec

variable {ε α β σ : Type}

/-! ## Parsing -/

theorem main_ne_ok_le {pr : Profile} : ∀ (fuel : Nat) (self : Context),
    self.p.length ≤ fuel →
    (mainLoop pr fuel self).1 = self.mainLoop pr fuel ∧ (mainLoop pr fuel self).2 ≤ 4 * self.p.length + held 1 self ∧
      ∀ c, self.mainLoop pr fuel = .ok c → (mainLoop pr fuel self).2 = self.p.length ∧
        ∀ l, l ≤ 3 → held l c ≤ held l self + 3 * self.p.length := by
  intro fuel
  induction fuel with
  | zero =>
    intro self hl
    have he : self.p.isEmpty = true := by
      cases hp : self.p with
      | nil => rfl
      | cons a b => rw [hp] at hl; simp at hl
    rw [mainLoop, Context.mainLoop, if_pos he, if_pos he]
    refine ⟨rfl, Nat.zero_le _, fun c h => ?_⟩
    cases h
    have : self.p.length = 0 := by omega
    exact ⟨this.symm, fun l _ => Nat.le_add_right _ _⟩
  | succ fuel ih =>
    intro self hl
    rw [mainLoop, Context.mainLoop]
    by_cases he : self.p.isEmpty = true
    · rw [if_pos he, if_pos he]
      refine ⟨rfl, Nat.zero_le _, fun c h => ?_⟩
      cases h
      have : self.p.length = 0 := by
        cases hp : self.p with
        | nil => rfl
        | cons a b => rw [hp] at he; cases he
      exact ⟨this.symm, fun l _ => Nat.le_add_right _ _⟩
    · rw [if_neg he, if_neg he]
      have hne : self.p ≠ [] := fun e => he (by rw [e]; rfl)
      have hpos : 1 ≤ self.p.length := by
        cases hp : self.p with
        | nil => exact absurd hp hne
        | cons a b => simp
      cases hm : self.main pr self.p with
      | ok self' =>
        have h1 := held_main (l := 1) (by omega) hne hm
        obtain ⟨i1, i2, i3⟩ := ih self' (by omega)
        refine ⟨i1, ?_, fun c h => ?_⟩
        · show (mainLoop pr fuel self').2 + 1 ≤ _
          omega
        · obtain ⟨j1, j2⟩ := i3 c h
          refine ⟨?_, fun l hl3 => ?_⟩
          · show (mainLoop pr fuel self').2 + 1 = _
            omega
          · have := j2 l hl3
            have := (held_main hl3 hne hm).1
            omega
      | err e =>
        refine ⟨rfl, ?_, fun c h => by cases h⟩
        show 0 + (1 + dropContext self) ≤ _
        rw [dropContext_held]; omega
      | panic e =>
        refine ⟨rfl, ?_, fun c h => by cases h⟩
        show 0 + (1 + dropContext self) ≤ _
        rw [dropContext_held]; omega
      | timeout =>
        refine ⟨rfl, ?_, fun c h => by cases h⟩
        show 0 + (1 + dropContext self) ≤ _
        rw [dropContext_held]; omega

/-- The characters looked at in search of the end of a verb. -/
def seen (input : Str) : Nat :=
  match input with
  | '(' :: '*' :: rest => (rest.takeWhile (fun c => c != ')')).length
  | _ => 0

theorem readControlVerbs_steps (input : Str) (start : Nat) (mode : ParseMode) :
    (readControlVerbs input start mode).1 = Rescan.readControlVerbs input start mode ∧
    (readControlVerbs input start mode).2 ≤ 18 + 2 * seen input ∧
    ((Rescan.readControlVerbs input start mode).isOk = true → (readControlVerbs input start mode).2 = 18 + seen input) := by
  have e : readControlVerbs input start mode = match Rescan.readControlVerbs input start mode with
    | .err e => steps (18 + seen input + seen input) (ret (.err e))
    | r => steps (18 + seen input) (ret r) := rfl
  rw [e]
  cases Rescan.readControlVerbs input start mode with
  | ok a => exact ⟨rfl, by show 0 + (18 + seen input) ≤ _; omega, fun _ => Nat.zero_add _⟩
  | err a => exact ⟨rfl, by show 0 + (18 + seen input + seen input) ≤ _; omega, fun h => by cases h⟩
  | panic a => exact ⟨rfl, by show 0 + (18 + seen input) ≤ _; omega, fun h => by cases h⟩
  | timeout => exact ⟨rfl, by show 0 + (18 + seen input) ≤ _; omega, fun h => by cases h⟩

theorem seen_le (input : Str) : seen input ≤ input.length := by
  unfold seen
  split
  · rename_i rest
    have : (rest.takeWhile (fun c => c != ')')).length ≤ rest.length := (List.takeWhile_sublist _).length_le
    simp; omega
  · omega

theorem takeDrop_length (f : Char → Bool) : ∀ l : Str, (l.takeWhile f).length + (l.dropWhile f).length = l.length
  | l => by rw [← List.length_append, List.takeWhile_append_dropWhile]

theorem drop_takeWhile (f : Char → Bool) (l : Str) : l.drop (l.takeWhile f).length = l.dropWhile f := by
  have h : ∀ a b : Str, (a ++ b).drop a.length = b := fun a b => by simp
  have := h (l.takeWhile f) (l.dropWhile f)
  rwa [List.takeWhile_append_dropWhile] at this

/-- What is left after the verb: with no verb everything, and then either nothing was looked at or there is no `)`. -/
theorem readControlVerbs_rest {input rest : Str} {start : Nat} {mode m : ParseMode}
    (h : Rescan.readControlVerbs input start mode = .ok (rest, m)) :
    (rest = input ∧ (seen input = 0 ∨ (∃ t, input = '(' :: t) ∧ ')' ∉ input)) ∨ seen input + rest.length + 3 = input.length := by
  have hc : ∀ r v, controlVerb input = some (r, v) → seen input + r.length + 3 = input.length := by
    intro r v hv
    unfold controlVerb at hv
    split at hv
    · rename_i r0
      split at hv
      · cases hv
      · rename_i r1 v1 h1
        split at hv
        · rename_i r2
          injection hv with hv
          injection hv with hv _
          subst hv
          unfold isNotClose at h1
          dsimp only at h1
          split at h1
          · cases h1
          · injection h1 with h1
            injection h1 with h1 h1'
            have := takeDrop_length (fun c => c != ')') r0
            rw [← drop_takeWhile (fun c => c != ')') r0, h1] at this
            simp [seen] at this ⊢; omega
        · cases hv
    · cases hv
  unfold Rescan.readControlVerbs at h
  split at h
  · rename_i r verb hv
    right
    dsimp only at h
    split at h
    · cases h; exact hc _ _ hv
    · split at h
      · cases h; exact hc _ _ hv
      · split at h
        · cases h
        · split at h <;> cases h
  · rename_i hv
    cases h
    left
    refine ⟨rfl, ?_⟩
    unfold controlVerb at hv
    split at hv
    · rename_i r0
      split at hv
      · rename_i h1
        unfold isNotClose at h1
        dsimp only at h1
        split at h1
        · rename_i h2
          left
          simp [seen]
          simpa using h2
        · cases h1
      · rename_i r1 v1 h1
        unfold isNotClose at h1
        dsimp only at h1
        split at h1
        · cases h1
        · injection h1 with h1
          injection h1 with h1 h1'
          split at hv
          · cases hv
          · rename_i hno
            right
            refine ⟨⟨_, rfl⟩, ?_⟩
            have hd : r0.dropWhile (fun c => c != ')') = [] := by
              cases hd : r0.dropWhile (fun c => c != ')') with
              | nil => rfl
              | cons a b =>
                have ha : a = ')' := by
                  have := List.head_dropWhile_not (fun c => c != ')') (l := r0) (by rw [hd]; simp)
                  simp only [hd, List.head_cons] at this
                  simpa using this
                rw [ha] at hd
                rw [drop_takeWhile, hd] at h1
                exact absurd h1.symm (hno b)
            have : ')' ∉ r0 := by
              have e := List.takeWhile_append_dropWhile (p := fun c => c != ')') (l := r0)
              rw [hd, List.append_nil] at e
              rw [← e]; exact not_mem_takeWhile r0
            simp [this]
    · left
      rename_i hno
      unfold seen
      split
      · rename_i rest
        exact absurd rfl (hno rest)
      · rfl

theorem held_new (l : Nat) (ptr p : Str) (m : ParseMode) : held l (Context.new ptr p m) = 1 := by
  simp [held, Context.new, callsSeq, callsAll]

theorem finish_steps (c : Context) : (finish c).1 = c.finish ∧ (finish c).2 ≤ held 1 c ∧ (c.finish.isOk = true → (finish c).2 = 0) := by
  unfold finish
  cases hc : c.finish with
  | ok a => exact ⟨rfl, Nat.zero_le _, fun _ => rfl⟩
  | err e => exact ⟨rfl, by show 0 + dropContext c ≤ _; rw [dropContext_held]; omega, fun h => by cases h⟩
  | panic e => exact ⟨rfl, by show 0 + dropContext c ≤ _; rw [dropContext_held]; omega, fun h => by cases h⟩
  | timeout => exact ⟨rfl, by show 0 + dropContext c ≤ _; rw [dropContext_held]; omega, fun h => by cases h⟩

/-- What the parser does once the verb is read. -/
theorem rest_steps (pr : Profile) (ptr rest : Str) (m : ParseMode) :
    let w := W.bind (mainLoop pr rest.length (Context.new ptr rest m)) fun c => finish c
    w.1 = (Context.new ptr rest m).parse pr ∧ w.2 ≤ 4 * rest.length + 1 ∧
      ∀ s, (Context.new ptr rest m).parse pr = .ok s → w.2 = rest.length ∧ ∀ l, l ≤ 3 → callsSeq l s ≤ 3 * rest.length + 3 := by
  intro w
  have e : (Context.new ptr rest m).p = rest := rfl
  obtain ⟨h1, h2, h3⟩ := main_ne_ok_le (pr := pr) rest.length (Context.new ptr rest m) (Nat.le_refl _)
  rw [held_new, e] at h2
  rw [e] at h3
  have hp : (Context.new ptr rest m).parse pr = ((Context.new ptr rest m).mainLoop pr rest.length).bind Context.finish := rfl
  rw [hp]
  have hw : w = W.bind (mainLoop pr rest.length (Context.new ptr rest m)) fun c => finish c := rfl
  clear_value w
  generalize hL : mainLoop pr rest.length (Context.new ptr rest m) = L at h1 h2 h3 hw
  obtain ⟨r, n⟩ := L
  dsimp only at h1 h2 h3
  subst h1
  cases hr : (Context.new ptr rest m).mainLoop pr rest.length with
  | ok c =>
    rw [hr] at hw
    obtain ⟨i1, i2⟩ := h3 c hr
    obtain ⟨f1, f2, f3⟩ := finish_steps c
    have j := i2 1 (by omega)
    rw [held_new] at j
    subst hw
    refine ⟨f1, ?_, fun s hs => ⟨?_, fun l hl => ?_⟩⟩
    · show n + (finish c).2 ≤ _
      omega
    · show n + (finish c).2 = _
      have hs' : c.finish = .ok s := hs
      rw [f3 (by rw [hs']; rfl)]; omega
    · have hs' : c.finish = .ok s := hs
      unfold Context.finish at hs'
      split at hs'
      · cases hs'
      · rename_i hq
        cases hs'
        have j := i2 l hl
        rw [held_new] at j
        have := calls_finalize l c.currentSeq
        simp only [held, hq, List.map_nil, List.sum_nil] at j
        omega
  | err x => rw [hr] at hw; subst hw; exact ⟨rfl, h2, fun s hs => by cases hs⟩
  | panic x => rw [hr] at hw; subst hw; exact ⟨rfl, h2, fun s hs => by cases hs⟩
  | timeout => rw [hr] at hw; subst hw; exact ⟨rfl, h2, fun s hs => by cases hs⟩

theorem bind_assoc {γ : Type} (m : W ε α) (f : α → W ε β) (g : β → W ε γ) :
    W.bind (W.bind m f) g = W.bind m fun a => W.bind (f a) g := by
  obtain ⟨r, n⟩ := m
  cases r with
  | ok a =>
    show W.bind ((f a).1, n + (f a).2) g = ((W.bind (f a) g).1, n + (W.bind (f a) g).2)
    generalize f a = x
    obtain ⟨q, k⟩ := x
    cases q with
    | ok b =>
      show ((g b).1, n + k + (g b).2) = ((g b).1, n + (k + (g b).2))
      rw [Nat.add_assoc]
    | _ => rfl
  | _ => rfl

theorem bind_ok_fst {m : W ε α} {f : α → β} : (W.bind m fun a => ((.ok (f a), 0) : W ε β)) = (m.1.bind fun a => .ok (f a), m.2) := by
  obtain ⟨r, n⟩ := m
  cases r <;> rfl

/-- Parsing: at most `5 n + 19` steps, and exactly `18 + seen + rest` if the pattern is accepted. -/
theorem parse_steps (pr : Profile) (ptr : Str) (mode : ParseMode) :
    (parse pr ptr mode).1 = Rescan.parse pr ptr mode ∧ (parse pr ptr mode).2 ≤ 5 * ptr.length + 19 ∧
      ∀ c m, Rescan.parse pr ptr mode = .ok (c, m) →
        (∃ rest, Rescan.readControlVerbs ptr 0 mode = .ok (rest, m) ∧ (parse pr ptr mode).2 = 18 + seen ptr + rest.length) ∧
        ∀ l, l ≤ 3 → calls l c ≤ 3 * ptr.length + 4 := by
  have hP : parse pr ptr mode = W.bind (readControlVerbs ptr 0 mode) fun x =>
      W.bind (mainLoop pr x.1.length (Context.new ptr x.1 x.2)) fun c => W.bind (finish c) fun s =>
        ((.ok (.sequence s, x.2), 0) : W CompileError (Component × ParseMode)) := rfl
  have hR : Rescan.parse pr ptr mode = (Rescan.readControlVerbs ptr 0 mode).bind fun x =>
      ((Context.new ptr x.1 x.2).parse pr).bind fun s => .ok (.sequence s, x.2) := rfl
  obtain ⟨v1, v2, v3⟩ := readControlVerbs_steps ptr 0 mode
  have hs := seen_le ptr
  rw [hP, hR]
  generalize readControlVerbs ptr 0 mode = V at v1 v2 v3
  obtain ⟨r, n⟩ := V
  dsimp only at v1 v2 v3
  subst v1
  cases hv : Rescan.readControlVerbs ptr 0 mode with
  | ok x =>
    obtain ⟨rest, m⟩ := x
    obtain ⟨s1, s2, s3⟩ := rest_steps pr ptr rest m
    have hn : n = 18 + seen ptr := v3 (by rw [hv]; rfl)
    have hlen : seen ptr + rest.length + 3 = ptr.length ∨ rest = ptr ∧ (seen ptr = 0 ∨ seen ptr ≤ ptr.length) := by
      rcases readControlVerbs_rest hv with ⟨h, _⟩ | h
      · exact .inr ⟨h, .inr hs⟩
      · exact .inl h
    have hlen' : rest.length ≤ ptr.length := by
      rcases hlen with h | ⟨h, _⟩
      · omega
      · rw [h]; exact Nat.le_refl _
    have e1 : W.bind ((.ok (rest, m), n) : W CompileError (Str × ParseMode)) (fun x =>
        W.bind (mainLoop pr x.1.length (Context.new ptr x.1 x.2)) fun c => W.bind (finish c) fun s =>
          ((.ok (.sequence s, x.2), 0) : W CompileError (Component × ParseMode))) =
        (((Context.new ptr rest m).parse pr).bind fun s => .ok (.sequence s, m),
          n + (W.bind (mainLoop pr rest.length (Context.new ptr rest m)) fun c => finish c).2) := by
      have key : (W.bind (mainLoop pr rest.length (Context.new ptr rest m)) fun c => W.bind (finish c) fun s =>
          ((.ok (.sequence s, m), 0) : W CompileError (Component × ParseMode))) =
          (((Context.new ptr rest m).parse pr).bind fun s => .ok (.sequence s, m),
            (W.bind (mainLoop pr rest.length (Context.new ptr rest m)) fun c => finish c).2) := by
        refine (bind_assoc _ _ _).symm.trans ((bind_ok_fst (f := fun s => (Component.sequence s, m))).trans ?_)
        rw [s1]
      show ((W.bind (mainLoop pr rest.length (Context.new ptr rest m)) fun c => W.bind (finish c) fun s =>
          ((.ok (.sequence s, m), 0) : W CompileError (Component × ParseMode))).1,
        n + (W.bind (mainLoop pr rest.length (Context.new ptr rest m)) fun c => W.bind (finish c) fun s =>
          ((.ok (.sequence s, m), 0) : W CompileError (Component × ParseMode))).2) = _
      rw [key]
    rw [e1]
    refine ⟨rfl, ?_, fun c m' hc => ?_⟩
    · show n + _ ≤ _
      omega
    · have hc' : ((Context.new ptr rest m).parse pr).bind (fun s => .ok (.sequence s, m)) = .ok (c, m') := hc
      obtain ⟨s, hs1, hs2⟩ := bind_eq_ok hc'
      cases hs2
      obtain ⟨t1, t2⟩ := s3 s hs1
      refine ⟨⟨rest, rfl, ?_⟩, fun l hl => ?_⟩
      · show n + _ = _
        omega
      · have := t2 l hl
        rw [calls]; omega
  | err x => exact ⟨rfl, by show n ≤ _; omega, fun c m hc => by cases hc⟩
  | panic x => exact ⟨rfl, by show n ≤ _; omega, fun c m hc => by cases hc⟩
  | timeout => exact ⟨rfl, by show n ≤ _; omega, fun c m hc => by cases hc⟩

/-! ## The trie -/

/-- The byte at a node. -/
def byteAt (t : LitTrie) (v : Nat) : Option U8 := (t.inner.nodes[v]?).map (fun w => w.c)

/-- Edges lead to nodes, and the nodes to which edges lead from one node have different bytes. -/
structure Fan (t : LitTrie) : Prop where
  target : ∀ e ∈ t.inner.edges, e.2 < t.inner.nodes.length
  differ : ∀ u, ((t.inner.outgoing u).map (byteAt t)).Nodup

theorem fan_default : Fan LitTrie.default where
  target := by intro e he; cases he
  differ := by intro u; exact List.nodup_nil

theorem looked_le (t : LitTrie) (u : Nat) (c : U8) : ∀ vs, looked t u c vs ≤ vs.length
  | [] => Nat.le_refl _
  | v :: vs => by
    have := looked_le t u c vs
    rw [looked, List.length_cons]
    split
    · split <;> omega
    · omega

theorem Fan.outgoing_le {t : LitTrie} (h : Fan t) (u : Nat) : (t.inner.outgoing u).length ≤ 256 := by
  have hall : ∀ x ∈ (t.inner.outgoing u).map (byteAt t), x ∈ (List.range 256).map (fun n => some (BitVec.ofNat 8 n)) := by
    intro x hx
    obtain ⟨v, hv, rfl⟩ := List.mem_map.1 hx
    have hlt := h.target _ ((LitTrie.mem_outgoing _ _ _).1 hv)
    unfold byteAt
    rw [List.getElem?_eq_getElem hlt]
    refine List.mem_map.2 ⟨(t.inner.nodes[v]).c.toNat, List.mem_range.2 (by exact (t.inner.nodes[v]).c.isLt), ?_⟩
    simp
  have := nodup_subset_length _ _ (h.differ u) hall
  simpa using this

theorem Fan.descend {t t' : LitTrie} {u u' : Nat} {c : U8} (h : Fan t) (hd : LitTrie.descend (ε := ε) (t, u) c = .ok (t', u')) :
    Fan t' ∧ dropTrie t' ≤ dropTrie t + 2 := by
  unfold LitTrie.descend at hd
  dsimp only at hd
  split at hd
  · cases hd; exact ⟨h, by omega⟩
  · rename_i hf
    obtain ⟨⟨g, next⟩, hg, hd⟩ := bind_eq_ok hd
    obtain ⟨g', hg', hd⟩ := bind_eq_ok hd
    cases hd
    unfold Graph.addNode at hg
    split at hg
    · cases hg
    · cases hg
      unfold Graph.addEdge at hg'
      split at hg'
      · cases hg'
      · split at hg'
        · cases hg'
          have hb : ∀ v, v < t.inner.nodes.length →
              ((t.inner.nodes ++ [⟨c, []⟩])[v]?).map (fun w : LitTrieVertexProps => w.c) = byteAt t v := by
            intro v hv
            rw [List.getElem?_append_left hv]; rfl
          have hmap : ∀ w, (t.inner.outgoing w).map (fun v => ((t.inner.nodes ++ [⟨c, []⟩])[v]?).map
              (fun w : LitTrieVertexProps => w.c)) = (t.inner.outgoing w).map (byteAt t) := by
            intro w
            refine List.map_congr_left fun v hv => hb v ?_
            exact h.target _ ((LitTrie.mem_outgoing _ _ _).1 hv)
          refine ⟨⟨?_, ?_⟩, ?_⟩
          · intro e he
            rcases List.mem_cons.1 he with rfl | he
            · simp
            · have := h.target e he
              simp; omega
          · intro w
            show (((Graph.outgoing ⟨_, (u, t.inner.nodes.length) :: t.inner.edges⟩ w)).map (fun v =>
              ((t.inner.nodes ++ [⟨c, []⟩])[v]?).map (fun w : LitTrieVertexProps => w.c))).Nodup
            by_cases hw : u = w
            · subst hw
              have : (Graph.outgoing (N := LitTrieVertexProps) ⟨t.inner.nodes ++ [⟨c, []⟩], (u, t.inner.nodes.length) :: t.inner.edges⟩ u)
                  = t.inner.nodes.length :: t.inner.outgoing u := by
                simp [Graph.outgoing]
              rw [this, List.map_cons, hmap, List.nodup_cons]
              refine ⟨?_, h.differ u⟩
              intro hm
              obtain ⟨v, hv, hvc⟩ := List.mem_map.1 hm
              have hlt := h.target _ ((LitTrie.mem_outgoing _ _ _).1 hv)
              have hn := List.find?_eq_none.1 hf v hv
              unfold byteAt at hvc
              rw [List.getElem?_eq_getElem hlt] at hvc hn
              simp at hvc hn
              exact hn hvc
            · have : (Graph.outgoing (N := LitTrieVertexProps) ⟨t.inner.nodes ++ [⟨c, []⟩], (u, t.inner.nodes.length) :: t.inner.edges⟩ w)
                  = t.inner.outgoing w := by
                simp [Graph.outgoing, hw]
              rw [this, hmap]
              exact h.differ w
          · simp [dropTrie, dropGraph]; omega
        · cases hg'

theorem descendAll_steps : ∀ (cs : List U8) (st : LitTrie × Nat), Fan st.1 →
    AtMost (ε := ε) (descendAll cs st) (cs.foldlM LitTrie.descend st) (257 * cs.length) ∧
      ∀ st', cs.foldlM (LitTrie.descend (ε := ε)) st = .ok st' → Fan st'.1 ∧ dropTrie st'.1 ≤ dropTrie st.1 + 2 * cs.length ∧
        cs.length ≤ (descendAll (ε := ε) cs st).2
  | [], st, h => ⟨AtMost.ret _ _, fun st' hs => by cases hs; exact ⟨h, Nat.le_refl _, Nat.le_refl _⟩⟩
  | c :: cs, st, h => by
    have hl := looked_le st.1 st.2 c (st.1.inner.outgoing st.2)
    have ho := h.outgoing_le st.2
    constructor
    · show AtMost (W.bind (steps _ (ret (LitTrie.descend st c))) fun st' => descendAll cs st')
        ((LitTrie.descend st c).bind fun st' => cs.foldlM LitTrie.descend st') _
      refine AtMost.mono (AtMost.bind (j := 257 * cs.length) (AtMost.steps _ (AtMost.ret _ 0)) fun st' hs => ?_) ?_
      · exact (descendAll_steps cs st' (h.descend (u := st.2) (u' := st'.2) hs).1).1
      · simp only [List.length_cons]; omega
    · intro st' hs
      rw [List.foldlM_cons] at hs
      obtain ⟨st1, h1, h2⟩ := bind_eq_ok hs
      obtain ⟨d1, d2⟩ := h.descend (u := st.2) (u' := st1.2) h1
      obtain ⟨e1, e2, e3⟩ := (descendAll_steps cs st1 d1).2 st' h2
      refine ⟨e1, by simp only [List.length_cons]; omega, ?_⟩
      have : (descendAll (ε := ε) (c :: cs) st).2 =
          (0 + (1 + looked st.1 st.2 c (st.1.inner.outgoing st.2))) + (descendAll (ε := ε) cs st1).2 := by
        show (W.bind (steps _ (ret (LitTrie.descend st c))) fun st' => descendAll cs st').2 = _
        rw [h1]; rfl
      rw [this]
      simp only [List.length_cons]; omega

end Rescan.Work
