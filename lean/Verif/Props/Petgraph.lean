import Verif.Model.Petgraph
/-! # Property C90: petgraph's linked lists -/
namespace Rescan
namespace Petgraph

variable {N ε : Type}

/-- Index of the newest edge with source `v`; edges newest first. -/
def newestOut : List Edge → Nat → Nat
  | [], _ => END
  | e :: rest, v => if e.src = v then rest.length else newestOut rest v

/-- Index of the newest edge with target `v`; edges newest first. -/
def newestInc : List Edge → Nat → Nat
  | [], _ => END
  | e :: rest, v => if e.dst = v then rest.length else newestInc rest v

/-- Each edge leads to the next older one at the same vertex; edges newest first. -/
def Chained : List Edge → Prop
  | [] => True
  | e :: rest => e.nextOut = newestOut rest e.src ∧ e.nextInc = newestInc rest e.dst ∧ Chained rest

/-- The stored graph `s` holds the graph `g`. -/
structure Holds (s : PGraph N) (g : Graph N) : Prop where
  nodes : s.nodes.map Node.weight = g.nodes
  edges : s.edges.reverse.map (fun e => (e.src, e.dst)) = g.edges
  chained : Chained s.edges.reverse
  heads : ∀ (i : Nat) (n : Node N), s.nodes[i]? = some n →
    n.out = newestOut s.edges.reverse i ∧ n.inc = newestInc s.edges.reverse i
  ends : ∀ e ∈ s.edges, e.src < s.nodes.length ∧ e.dst < s.nodes.length
  few : s.edges.length ≤ END
  fewNodes : s.nodes.length ≤ END

theorem newestOut_old : ∀ (l : List Edge) (v : Nat), (∀ e ∈ l, e.src ≠ v) → newestOut l v = END
  | [], _, _ => rfl
  | e :: l, v, h => by
    unfold newestOut
    rw [if_neg (h e (by simp)), newestOut_old l v (fun e he => h e (by simp [he]))]

theorem newestInc_old : ∀ (l : List Edge) (v : Nat), (∀ e ∈ l, e.dst ≠ v) → newestInc l v = END
  | [], _, _ => rfl
  | e :: l, v, h => by
    unfold newestInc
    rw [if_neg (h e (by simp)), newestInc_old l v (fun e he => h e (by simp [he]))]

theorem holds_new : Holds (PGraph.new : PGraph N) Graph.new :=
  ⟨rfl, rfl, trivial, fun i n h => by simp [PGraph.new] at h, fun e h => by simp [PGraph.new] at h,
    by simp [PGraph.new], by simp [PGraph.new]⟩

theorem length_eq {s : PGraph N} {g : Graph N} (h : Holds s g) :
    s.nodes.length = g.nodes.length ∧ s.edges.length = g.edges.length := by
  rw [← h.nodes, ← h.edges]; simp

theorem holds_addNode {s : PGraph N} {g : Graph N} (h : Holds s g) (w : N) :
    (∃ s' g', (s.addNode w : Outcome ε _) = .ok (s', s.nodes.length) ∧
      (g.addNode w : Outcome ε _) = .ok (g', s.nodes.length) ∧ Holds s' g') ∨
    ∃ m, (s.addNode w : Outcome ε _) = .panic m ∧ (g.addNode w : Outcome ε _) = .panic m := by
  have hl := (length_eq h).1
  unfold PGraph.addNode Graph.addNode
  by_cases hc : s.nodes.length = END
  · exact .inr ⟨_, by rw [if_pos hc], by rw [if_pos (show g.nodes.length = 2 ^ 32 - 1 by rw [← hl]; exact hc)]⟩
  · refine .inl ⟨_, _, by rw [if_neg hc],
      by rw [if_neg (show ¬ g.nodes.length = 2 ^ 32 - 1 by rw [← hl]; exact hc), hl], ?_⟩
    refine ⟨by simp [h.nodes], h.edges, h.chained, ?_, ?_, h.few, ?_⟩
    · intro i n hi
      by_cases hlt : i < s.nodes.length
      · rw [List.getElem?_append_left hlt] at hi; exact h.heads i n hi
      · have hi2 : i = s.nodes.length := by
          have := (List.getElem?_eq_some_iff.mp hi).1
          simp at this; omega
        subst hi2
        simp at hi; subst hi
        refine ⟨(newestOut_old _ _ fun e he => ?_).symm, (newestInc_old _ _ fun e he => ?_).symm⟩
        · have := (h.ends e (by simpa using he)).1; omega
        · have := (h.ends e (by simpa using he)).2; omega
    · intro e he
      have := h.ends e he
      simp; omega
    · have := h.fewNodes
      simp; omega

theorem holds_addEdge {s : PGraph N} {g : Graph N} (h : Holds s g) (a b : Nat) :
    (∃ s' g', (s.addEdge a b : Outcome ε _) = .ok s' ∧ (g.addEdge a b : Outcome ε _) = .ok g' ∧ Holds s' g') ∨
    ∃ m, (s.addEdge a b : Outcome ε _) = .panic m ∧ (g.addEdge a b : Outcome ε _) = .panic m := by
  have hl := length_eq h
  unfold PGraph.addEdge Graph.addEdge
  by_cases hc : s.edges.length = END
  · exact .inr ⟨_, by simp only [if_pos hc]; rfl,
      by rw [if_pos (show g.edges.length = 2 ^ 32 - 1 by rw [← hl.2]; exact hc)]⟩
  · simp only [if_neg hc, if_neg (show ¬ g.edges.length = 2 ^ 32 - 1 by rw [← hl.2]; exact hc)]
    have few : s.edges.length + 1 ≤ END := by have := h.few; omega
    by_cases hab : a < s.nodes.length ∧ b < s.nodes.length
    · obtain ⟨ha, hb⟩ := hab
      rw [if_pos (by omega)]
      rw [List.getElem?_eq_getElem ha, List.getElem?_eq_getElem hb]
      have hA := h.heads a _ (List.getElem?_eq_getElem ha)
      have hB := h.heads b _ (List.getElem?_eq_getElem hb)
      left
      by_cases e : a = b
      · subst e
        simp only [if_true]
        refine ⟨_, _, rfl, rfl, ?_, ?_, ?_, ?_, ?_, by simpa using few, by simpa using h.fewNodes⟩
        · rw [← h.nodes]
          apply List.ext_getElem?; intro i
          simp only [List.getElem?_map, List.getElem?_set]
          split
          · rename_i e; subst e; simp [ha]
          · rfl
        · simp [← h.edges]
        · simp only [List.reverse_append, List.reverse_cons, List.reverse_nil, List.nil_append, List.singleton_append]
          exact ⟨hA.1, hA.2, h.chained⟩
        · intro i n hi
          simp only [List.reverse_append, List.reverse_cons, List.reverse_nil, List.nil_append, List.singleton_append,
            newestOut, newestInc, List.length_reverse]
          simp only [List.getElem?_set] at hi
          split at hi
          · rename_i e; subst e
            simp only [ha, if_true, Option.some.injEq] at hi; subst hi; simp
          · rename_i e
            simp only [if_neg e]; exact h.heads i n hi
        · intro e he
          simp only [List.mem_append, List.mem_singleton] at he
          rcases he with he | he
          · simpa using h.ends e he
          · subst he; simp [ha]
      · simp only [if_neg e]
        refine ⟨_, _, rfl, rfl, ?_, ?_, ?_, ?_, ?_, by simpa using few, by simpa using h.fewNodes⟩
        · rw [← h.nodes]
          apply List.ext_getElem?; intro i
          simp only [List.getElem?_map, List.getElem?_set, List.length_set]
          split
          · rename_i e; subst e; simp [hb]
          · split
            · rename_i e; subst e; simp [ha]
            · rfl
        · simp [← h.edges]
        · simp only [List.reverse_append, List.reverse_cons, List.reverse_nil, List.nil_append, List.singleton_append]
          exact ⟨hA.1, hB.2, h.chained⟩
        · intro i n hi
          simp only [List.reverse_append, List.reverse_cons, List.reverse_nil, List.nil_append, List.singleton_append,
            newestOut, newestInc, List.length_reverse]
          simp only [List.getElem?_set, List.length_set] at hi
          split at hi
          · rename_i e2; subst e2
            simp only [hb, if_true, Option.some.injEq] at hi; subst hi
            simp only [if_neg e, if_true]; exact ⟨hB.1, trivial⟩
          · rename_i e2
            split at hi
            · rename_i e3; subst e3
              simp only [ha, if_true, Option.some.injEq] at hi; subst hi
              simp only [if_neg e2, if_true]; exact ⟨trivial, hA.2⟩
            · rename_i e3
              simp only [if_neg e2, if_neg e3]; exact h.heads i n hi
        · intro e he
          simp only [List.mem_append, List.mem_singleton] at he
          rcases he with he | he
          · simpa using h.ends e he
          · subst he; simp [ha, hb]
    · right
      refine ⟨"Graph::add_edge: node indices out of bounds", ?_, by rw [if_neg (by omega)]⟩
      split
      · rename_i h1 h2
        exact absurd ⟨(List.getElem?_eq_some_iff.mp h1).1, (List.getElem?_eq_some_iff.mp h2).1⟩ hab
      · rfl

theorem holds_modify {s : PGraph N} {g : Graph N} (h : Holds s g) (i : Nat) (f : N → N) :
    (∃ s' g', (Step.run s (.weight i f) : Outcome ε _) = .ok s' ∧
      (Step.runG g (.weight i f) : Outcome ε _) = .ok g' ∧ Holds s' g') ∨
    ∃ m, (Step.run s (.weight i f) : Outcome ε _) = .panic m ∧
      (Step.runG g (.weight i f) : Outcome ε _) = .panic m := by
  have hl := (length_eq h).1
  unfold Step.run Step.runG PGraph.modify
  simp only
  by_cases hi : i < s.nodes.length
  · rw [List.getElem?_eq_getElem hi, if_pos (by omega)]
    refine .inl ⟨_, _, rfl, rfl, ?_, h.edges, h.chained, ?_, ?_, h.few, by simpa using h.fewNodes⟩
    · rw [← h.nodes]
      apply List.ext_getElem?; intro j
      simp only [List.getElem?_map, List.getElem?_set, List.getElem?_modify]
      split
      · rename_i e; subst e; simp [hi]
      · simp
    · intro j n hj
      simp only [List.getElem?_set] at hj
      split at hj
      · rename_i e; subst e
        simp only [hi, if_true, Option.some.injEq] at hj; subst hj
        have := h.heads i _ (List.getElem?_eq_getElem hi)
        exact this
      · exact h.heads j n hj
    · intro e he
      simpa using h.ends e he
  · refine .inr ⟨"invalid index", ?_, by rw [if_neg (by omega)]⟩
    rw [List.getElem?_eq_none (by omega)]

theorem holds_step {s : PGraph N} {g : Graph N} (h : Holds s g) (t : Step N) :
    (∃ s' g', (t.run s : Outcome ε _) = .ok s' ∧ (t.runG g : Outcome ε _) = .ok g' ∧ Holds s' g') ∨
    ∃ m, (t.run s : Outcome ε _) = .panic m ∧ (t.runG g : Outcome ε _) = .panic m := by
  cases t with
  | node w =>
    rcases holds_addNode (ε := ε) h w with ⟨s', g', h1, h2, h3⟩ | ⟨m, h1, h2⟩
    · exact .inl ⟨s', g', by show Outcome.bind _ _ = _; rw [h1]; rfl, by show Outcome.bind _ _ = _; rw [h2]; rfl, h3⟩
    · exact .inr ⟨m, by show Outcome.bind _ _ = _; rw [h1]; rfl, by show Outcome.bind _ _ = _; rw [h2]; rfl⟩
  | edge a b => exact holds_addEdge h a b
  | weight i f => exact holds_modify h i f


theorem edge_at {s : PGraph N} {pre rest : List Edge} {e : Edge} (h : s.edges.reverse = pre ++ e :: rest) :
    s.edges[rest.length]? = some e := by
  have : s.edges = rest.reverse ++ e :: pre.reverse := by
    rw [← List.reverse_reverse s.edges, h]; simp
  rw [this, List.getElem?_append_right (by simp)]; simp

theorem no_edge {s : PGraph N} {g : Graph N} (h : Holds s g) : s.edges[END]? = none :=
  List.getElem?_eq_none h.few

theorem collect_out {s : PGraph N} {g : Graph N} (h : Holds s g) (v : Nat) :
    ∀ (rest pre : List Edge), s.edges.reverse = pre ++ rest → Chained rest → ∀ fuel, rest.length < fuel →
      (PGraph.collect s ⟨END, newestOut rest v, END⟩ fuel : Outcome ε _)
        = .ok ((rest.filter (fun e => e.src == v)).map Edge.dst)
  | _, _, _, _, 0, hf => absurd hf (Nat.not_lt_zero _)
  | [], _, _, _, fuel + 1, _ => by
    show Outcome.bind (PGraph.next s (fuel + 1) ⟨END, END, END⟩) _ = _
    unfold PGraph.next PGraph.nextIncoming
    simp only [no_edge h]; rfl
  | e :: rest, pre, hp, hc, fuel + 1, hf => by
    unfold newestOut
    by_cases he : e.src = v
    · rw [if_pos he]
      show Outcome.bind (PGraph.next s (fuel + 1) ⟨END, rest.length, END⟩) _ = _
      unfold PGraph.next
      simp only [edge_at hp]
      show Outcome.bind (PGraph.collect s ⟨END, e.nextOut, END⟩ fuel) _ = _
      rw [hc.1, he, collect_out h v rest (pre ++ [e]) (by simp [hp]) hc.2.2 fuel (by simpa using hf)]
      simp [Outcome.bind, he]; rfl
    · rw [if_neg he, collect_out h v rest (pre ++ [e]) (by simp [hp]) hc.2.2 (fuel + 1)
        (by simp at hf; omega)]
      simp [he]

theorem collect_in {s : PGraph N} {g : Graph N} (h : Holds s g) (v : Nat) :
    ∀ (rest pre : List Edge), s.edges.reverse = pre ++ rest → Chained rest → ∀ fuel, rest.length < fuel →
      (PGraph.collect s ⟨END, END, newestInc rest v⟩ fuel : Outcome ε _)
        = .ok ((rest.filter (fun e => e.dst == v)).map Edge.src)
  | _, _, _, _, 0, hf => absurd hf (Nat.not_lt_zero _)
  | [], _, _, _, fuel + 1, _ => by
    show Outcome.bind (PGraph.next s (fuel + 1) ⟨END, END, END⟩) _ = _
    unfold PGraph.next PGraph.nextIncoming
    simp only [no_edge h]; rfl
  | e :: rest, pre, hp, hc, fuel + 1, hf => by
    unfold newestInc
    by_cases he : e.dst = v
    · rw [if_pos he]
      have hs : e.src ≠ END := by
        have h1 := (h.ends e (by rw [← List.mem_reverse, hp]; simp)).1
        have h2 := h.fewNodes
        omega
      show Outcome.bind (PGraph.next s (fuel + 1) ⟨END, END, rest.length⟩) _ = _
      unfold PGraph.next PGraph.nextIncoming
      simp only [no_edge h, edge_at hp, if_pos hs]
      show Outcome.bind (PGraph.collect s ⟨END, END, e.nextInc⟩ fuel) _ = _
      rw [hc.2.1, he, collect_in h v rest (pre ++ [e]) (by simp [hp]) hc.2.2 fuel (by simpa using hf)]
      simp [Outcome.bind, he]; rfl
    · rw [if_neg he, collect_in h v rest (pre ++ [e]) (by simp [hp]) hc.2.2 (fuel + 1)
        (by simp at hf; omega)]
      simp [he]

/-- Index of the newest edge from `v` to `b`; edges newest first. -/
def newestBoth : List Edge → Nat → Nat → Option Nat
  | [], _, _ => none
  | e :: rest, v, b => if e.src = v ∧ e.dst = b then some rest.length else newestBoth rest v b

theorem find_from {s : PGraph N} {g : Graph N} (h : Holds s g) (v b : Nat) :
    ∀ (rest pre : List Edge), s.edges.reverse = pre ++ rest → Chained rest → ∀ fuel, rest.length < fuel →
      (PGraph.findFrom s b (newestOut rest v) fuel : Outcome ε _) = .ok (newestBoth rest v b)
  | _, _, _, _, 0, hf => absurd hf (Nat.not_lt_zero _)
  | [], _, _, _, fuel + 1, _ => by
    unfold PGraph.findFrom newestOut
    simp only [no_edge h]; rfl
  | e :: rest, pre, hp, hc, fuel + 1, hf => by
    unfold newestOut newestBoth
    by_cases he : e.src = v
    · rw [if_pos he]
      unfold PGraph.findFrom
      simp only [edge_at hp]
      by_cases hb : e.dst = b
      · rw [if_pos hb, if_pos ⟨he, hb⟩]
      · rw [if_neg hb, if_neg (fun x => hb x.2), hc.1, he]
        exact find_from h v b rest (pre ++ [e]) (by simp [hp]) hc.2.2 fuel (by simpa using hf)
    · rw [if_neg he, if_neg (fun x => he x.1)]
      exact find_from h v b rest (pre ++ [e]) (by simp [hp]) hc.2.2 (fuel + 1) (by simp at hf; omega)

theorem newestBoth_spec (v b : Nat) : ∀ (l : List Edge) (i : Nat), newestBoth l v b = some i ↔
    (l.reverse.map (fun e => (e.src, e.dst)))[i]? = some (v, b) ∧
      ∀ j, i < j → (l.reverse.map (fun e => (e.src, e.dst)))[j]? ≠ some (v, b)
  | [], i => by simp [newestBoth]
  | e :: l, i => by
    have hlen : (l.reverse.map (fun e => (e.src, e.dst))).length = l.length := by simp
    have hat : ∀ j, ((e :: l).reverse.map (fun e => (e.src, e.dst)))[j]? =
        if j < l.length then (l.reverse.map (fun e => (e.src, e.dst)))[j]?
        else if j = l.length then some (e.src, e.dst) else none := by
      intro j
      rw [List.reverse_cons, List.map_append]
      by_cases hj : j < l.length
      · rw [if_pos hj, List.getElem?_append_left (by rw [hlen]; exact hj)]
      · rw [if_neg hj, List.getElem?_append_right (by rw [hlen]; omega), hlen]
        by_cases hj2 : j = l.length
        · rw [if_pos hj2, hj2]; simp
        · rw [if_neg hj2]; exact List.getElem?_eq_none (by simp; omega)
    have hnone : ∀ j, ¬ j < l.length → (l.reverse.map (fun e => (e.src, e.dst)))[j]? = none :=
      fun j hj => List.getElem?_eq_none (by rw [hlen]; omega)
    unfold newestBoth
    simp only [hat]
    by_cases he : e.src = v ∧ e.dst = b
    · rw [if_pos he, he.1, he.2]
      constructor
      · intro h; cases h
        refine ⟨by simp, fun j hj => ?_⟩
        rw [if_neg (by omega), if_neg (by omega)]; simp
      · rintro ⟨h1, h2⟩
        by_cases hi : i < l.length
        · exact absurd (by simp) (h2 l.length hi)
        · rw [if_neg hi] at h1
          by_cases hi2 : i = l.length
          · rw [hi2]
          · rw [if_neg hi2] at h1; cases h1
    · rw [if_neg he, newestBoth_spec v b l i]
      have hne : some (e.src, e.dst) ≠ some (v, b) := by
        intro x; injection x with x; injection x with x y; exact he ⟨x, y⟩
      have key : ∀ j, (if j < l.length then (l.reverse.map (fun e => (e.src, e.dst)))[j]?
          else if j = l.length then some (e.src, e.dst) else none) = some (v, b) ↔
          (l.reverse.map (fun e => (e.src, e.dst)))[j]? = some (v, b) := by
        intro j
        by_cases hj : j < l.length
        · rw [if_pos hj]
        · rw [if_neg hj, hnone j hj]
          by_cases hj2 : j = l.length
          · rw [if_pos hj2]; simp only [hne]; simp
          · rw [if_neg hj2]
      simp only [Ne, key]

/-! ## The property -/

/-- The stored graph and the list of edges after the same changes, from nothing. -/
def Made (ts : List (Step N)) (s : PGraph N) (g : Graph N) : Prop :=
  (ts.foldlM (fun s t => t.run s) PGraph.new : Outcome Empty (PGraph N)) = .ok s ∧
    (ts.foldlM (fun g t => t.runG g) Graph.new : Outcome Empty (Graph N)) = .ok g

theorem fold_holds : ∀ (ts : List (Step N)) (s : PGraph N) (g : Graph N), Holds s g →
    (∃ s' g', (ts.foldlM (fun s t => t.run s) s : Outcome ε _) = .ok s' ∧
      (ts.foldlM (fun g t => t.runG g) g : Outcome ε _) = .ok g' ∧ Holds s' g') ∨
    ∃ m, (ts.foldlM (fun s t => t.run s) s : Outcome ε _) = .panic m ∧
      (ts.foldlM (fun g t => t.runG g) g : Outcome ε _) = .panic m
  | [], s, g, h => .inl ⟨s, g, rfl, rfl, h⟩
  | t :: ts, s, g, h => by
    simp only [List.foldlM_cons]
    rcases holds_step (ε := ε) h t with ⟨s1, g1, h1, h2, h3⟩ | ⟨m, h1, h2⟩
    · rw [h1, h2]; exact fold_holds ts s1 g1 h3
    · rw [h1, h2]; exact .inr ⟨m, rfl, rfl⟩

theorem made_holds {ts : List (Step N)} {s : PGraph N} {g : Graph N} (h : Made ts s g) : Holds s g := by
  rcases fold_holds (ε := Empty) ts PGraph.new Graph.new holds_new with ⟨s', g', h1, h2, h3⟩ | ⟨m, h1, _⟩
  · have e1 := h.1.symm.trans h1
    have e2 := h.2.symm.trans h2
    cases e1; cases e2; exact h3
  · have := h.1.symm.trans h1; cases this

/-- **C90.** Whatever vertices and edges are added and weights changed: the linked lists and the list of edges
take the same changes, and where one panics the other does, with the same message. Weights are the same. -/
theorem C90_changes (ts : List (Step N)) :
    (∃ s g, Made ts s g ∧ s.nodes.map Node.weight = g.nodes ∧ s.edges.length = g.edges.length) ∨
    ∃ m, (ts.foldlM (fun s t => t.run s) PGraph.new : Outcome Empty (PGraph N)) = .panic m ∧
      (ts.foldlM (fun g t => t.runG g) Graph.new : Outcome Empty (Graph N)) = .panic m := by
  rcases fold_holds (ε := Empty) ts PGraph.new Graph.new holds_new with ⟨s, g, h1, h2, h3⟩ | h
  · exact .inl ⟨s, g, ⟨h1, h2⟩, h3.nodes, (length_eq h3).2⟩
  · exact .inr h

theorem holds_neighbors {s : PGraph N} {g : Graph N} (H : Holds s g) (a fuel : Nat)
    (hf : g.edges.length < fuel) :
    (s.collect (s.neighborsOut a) fuel : Outcome ε _) = .ok (g.outgoing a) ∧
      (s.collect (s.neighborsIn a) fuel : Outcome ε _) = .ok (g.incoming a) := by
  have hf' : s.edges.reverse.length < fuel := by rw [List.length_reverse, (length_eq H).2]; exact hf
  have ho := collect_out (ε := ε) H a s.edges.reverse [] rfl H.chained fuel hf'
  have hi := collect_in (ε := ε) H a s.edges.reverse [] rfl H.chained fuel hf'
  have e1 : ((s.edges.reverse.filter (fun e => e.src == a)).map Edge.dst) = g.outgoing a := by
    unfold Graph.outgoing; rw [← H.edges, List.filter_map, List.map_map]; rfl
  have e2 : ((s.edges.reverse.filter (fun e => e.dst == a)).map Edge.src) = g.incoming a := by
    unfold Graph.incoming; rw [← H.edges, List.filter_map, List.map_map]; rfl
  rw [e1] at ho; rw [e2] at hi
  unfold PGraph.neighborsOut PGraph.neighborsIn
  cases hn : s.nodes[a]? with
  | some n =>
    have := H.heads a n hn
    simp only [this.1, this.2]
    exact ⟨ho, hi⟩
  | none =>
    have hge : s.nodes.length ≤ a := List.getElem?_eq_none_iff.mp hn
    rw [newestOut_old _ _ (fun e he => by have := (H.ends e (by simpa using he)).1; omega)] at ho
    rw [newestInc_old _ _ (fun e he => by have := (H.ends e (by simpa using he)).2; omega)] at hi
    exact ⟨ho, hi⟩

theorem holds_find {s : PGraph N} {g : Graph N} (H : Holds s g) (a b fuel : Nat)
    (hf : g.edges.length < fuel) :
    ∃ r, (s.findEdge fuel a b : Outcome ε _) = .ok r ∧ r.isSome = g.hasEdge a b ∧
      ∀ i, r = some i ↔ g.edges.reverse[i]? = some (a, b) ∧ ∀ j, i < j → g.edges.reverse[j]? ≠ some (a, b) := by
  have hf' : s.edges.reverse.length < fuel := by rw [List.length_reverse, (length_eq H).2]; exact hf
  have key : (s.findEdge fuel a b : Outcome ε _) = .ok (newestBoth s.edges.reverse a b) := by
    have hfrom := find_from (ε := ε) H a b s.edges.reverse [] rfl H.chained fuel hf'
    unfold PGraph.findEdge
    cases hn : s.nodes[a]? with
    | some n => simp only [(H.heads a n hn).1]; exact hfrom
    | none =>
      have hge : s.nodes.length ≤ a := List.getElem?_eq_none_iff.mp hn
      have : ∀ l : List Edge, (∀ e ∈ l, e.src ≠ a) → newestBoth l a b = none := by
        intro l
        induction l with
        | nil => intro _; rfl
        | cons e l ih =>
          intro hl
          unfold newestBoth
          rw [if_neg (fun x => hl e (by simp) x.1), ih (fun e he => hl e (by simp [he]))]
      rw [this _ (fun e he => by have := (H.ends e (by simpa using he)).1; omega)]
  refine ⟨_, key, ?_, fun i => ?_⟩
  · unfold Graph.hasEdge
    rw [← H.edges]
    generalize s.edges.reverse = l
    induction l with
    | nil => rfl
    | cons e l ih =>
      unfold newestBoth
      by_cases he : e.src = a ∧ e.dst = b
      · rw [if_pos he]; simp [he.1, he.2]
      · rw [if_neg he, ih]
        have : (e.src == a && e.dst == b) = false := by simpa using he
        simp [this]
  · have := newestBoth_spec a b s.edges.reverse i
    rw [← H.edges, ← List.map_reverse]; exact this

/-- **C90.** Following the links from any index, in range or not, ends after at most one step per edge and
gives the other ends of the edges there, newest first, loops and parallel edges included. -/
theorem C90_neighbors (ts : List (Step N)) (s : PGraph N) (g : Graph N) (h : Made ts s g) (a fuel : Nat)
    (hf : g.edges.length < fuel) :
    (s.collect (s.neighborsOut a) fuel : Outcome ε _) = .ok (g.outgoing a) ∧
      (s.collect (s.neighborsIn a) fuel : Outcome ε _) = .ok (g.incoming a) :=
  holds_neighbors (made_holds h) a fuel hf

example := C90_neighbors (ε := Empty) [.node 5, .node 6, .edge 0 1, .edge 1 1, .edge 0 1]
  (⟨[⟨5, 2, END⟩, ⟨6, 1, 2⟩], [⟨0, 1, END, END⟩, ⟨1, 1, END, 0⟩, ⟨0, 1, 0, 1⟩]⟩ : PGraph Nat)
  ⟨[5, 6], [(0, 1), (1, 1), (0, 1)]⟩ ⟨rfl, rfl⟩ 1 4 (by decide)

/-- **C90.** Looking for an edge ends after at most one step per edge. It finds the newest edge between the two
vertices, by its number in the order of addition, and finds nothing exactly if there is none. -/
theorem C90_find (ts : List (Step N)) (s : PGraph N) (g : Graph N) (h : Made ts s g) (a b fuel : Nat)
    (hf : g.edges.length < fuel) :
    ∃ r, (s.findEdge fuel a b : Outcome ε _) = .ok r ∧ r.isSome = g.hasEdge a b ∧
      ∀ i, r = some i ↔ g.edges.reverse[i]? = some (a, b) ∧ ∀ j, i < j → g.edges.reverse[j]? ≠ some (a, b) :=
  holds_find (made_holds h) a b fuel hf

/-- Three vertices, a loop, two parallel edges; the links are as in memory. -/
example : Made (N := Nat) [.node 5, .node 6, .node 7, .edge 0 1, .edge 1 1, .edge 0 1, .edge 2 1, .weight 1 (· + 1)]
    ⟨[⟨5, 2, END⟩, ⟨7, 1, 3⟩, ⟨7, 3, END⟩],
      [⟨0, 1, END, END⟩, ⟨1, 1, END, 0⟩, ⟨0, 1, 0, 1⟩, ⟨2, 1, END, 2⟩]⟩
    ⟨[5, 7, 7], [(2, 1), (0, 1), (1, 1), (0, 1)]⟩ := ⟨rfl, rfl⟩
/-- The incoming side of vertex 1 above, and the newer of the parallel edges. -/
example : let s : PGraph Nat := ⟨[⟨5, 2, END⟩, ⟨7, 1, 3⟩, ⟨7, 3, END⟩],
      [⟨0, 1, END, END⟩, ⟨1, 1, END, 0⟩, ⟨0, 1, 0, 1⟩, ⟨2, 1, END, 2⟩]⟩
    (s.collect (s.neighborsIn 1) 5 : Outcome Empty _) = .ok [2, 0, 1, 0] ∧
      (s.findEdge 5 0 1 : Outcome Empty _) = .ok (some 2) ∧
      (s.findEdge 5 1 2 : Outcome Empty _) = .ok none := by decide +kernel
/-- An edge to a vertex that does not exist: both panic. -/
example : ([Step.node 5, .edge 0 1].foldlM (fun s t => t.run s) PGraph.new : Outcome Empty (PGraph Nat))
    = .panic "Graph::add_edge: node indices out of bounds" := rfl

end Petgraph
end Rescan
