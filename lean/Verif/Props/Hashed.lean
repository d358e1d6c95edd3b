import Verif.Model.Hashed
import Verif.Props.StoredCompiler
import Std.Data.HashMap.Lemmas
/-! # Property C94: hash maps and sets of any layout -/
namespace Rescan.Hashed

open Rescan.Spec
open Rescan.Stored (Agree)

variable {ε : Type} {K V : Type}

/-- What std documents of `HashMap` (of `HashSet`, with `V = ()`; of `BTreeMap`): a new table is empty, an insertion
changes the value of its key alone, and going through a table meets every entry once. -/
structure Lawful [DecidableEq K] (I : MapImpl K V) : Prop where
  get_empty : ∀ s k, I.get (I.empty s) k = none
  get_insert : ∀ m k v k', I.get (I.insert m k v) k' = if k' = k then some v else I.get m k'
  iter_keys : ∀ m, ((I.iter m).map Prod.fst).Nodup
  mem_iter : ∀ m k v, (k, v) ∈ I.iter m ↔ I.get m k = some v
  len_iter : ∀ m, I.len m = (I.iter m).length

/-- All tables are lawful. -/
structure Hashing.Lawful (H : Hashing) : Prop where
  reports : Hashed.Lawful H.reports
  external : Hashed.Lawful H.external
  ekeys : Hashed.Lawful H.ekeys
  ids : Hashed.Lawful H.ids
  positions : Hashed.Lawful H.positions
  successors : Hashed.Lawful H.successors

/-! ## Lawful tables exist: a hash table with any hash function, a different one for each table -/

/-- A table of Lean's standard library together with its hash function. -/
structure Table (K V : Type) [DecidableEq K] where
  hash : K → UInt64
  map : @Std.HashMap K V instBEqOfDecidableEq ⟨hash⟩

/-- Tables hashed by `hash s` if made at `s`. -/
def stdHash (K V : Type) [DecidableEq K] (hash : Site → K → UInt64) : MapImpl K V where
  M := Table K V
  empty := fun s => ⟨hash s, letI : Hashable K := ⟨hash s⟩; ∅⟩
  get := fun m k => letI : Hashable K := ⟨m.hash⟩; m.map[k]?
  insert := fun m k v => ⟨m.hash, letI : Hashable K := ⟨m.hash⟩; m.map.insert k v⟩
  len := fun m => letI : Hashable K := ⟨m.hash⟩; m.map.size
  iter := fun m => letI : Hashable K := ⟨m.hash⟩; m.map.toList

theorem stdHash_lawful [DecidableEq K] (hash : Site → K → UInt64) : Lawful (stdHash K V hash) where
  get_empty := fun s k => by
    letI : Hashable K := ⟨hash s⟩
    exact Std.HashMap.getElem?_empty
  get_insert := fun m k v k' => by
    letI : Hashable K := ⟨m.hash⟩
    show (m.map.insert k v)[k']? = if k' = k then some v else m.map[k']?
    rw [Std.HashMap.getElem?_insert]
    by_cases h : k' = k
    · rw [if_pos h, if_pos (beq_iff_eq.2 h.symm)]
    · rw [if_neg h, if_neg (fun hb => h (beq_iff_eq.1 hb).symm)]
  iter_keys := fun m => by
    letI : Hashable K := ⟨m.hash⟩
    show (m.map.toList.map Prod.fst).Nodup
    rw [Std.HashMap.map_fst_toList_eq_keys]
    exact Std.HashMap.nodup_keys
  mem_iter := fun m k v => by
    letI : Hashable K := ⟨m.hash⟩
    exact Std.HashMap.mem_toList_iff_getElem?_eq_some
  len_iter := fun m => by
    letI : Hashable K := ⟨m.hash⟩
    exact (Std.HashMap.length_toList).symm

/-- Tables of Lean's library, hashed by the key and the place where the table was made. -/
def someHashing : Hashing where
  reports := stdHash Report Nat (fun s r => UInt64.ofNat (31 * r.minLength + s.length))
  external := stdHash Nat ExternalReportInfo (fun s n => UInt64.ofNat (7 * n + s.sum))
  ekeys := stdHash Int Nat (fun _ n => UInt64.ofNat n.toNat)
  ids := stdHash Nat Unit (fun s n => UInt64.ofNat (n * (s.sum + 3)))
  positions := stdHash PositionInfo Unit (fun _ _ => 0)
  successors := stdHash Nat _ (fun s n => UInt64.ofNat (n + s.length))

/-- They are lawful, so that the theorems apply. -/
theorem someHashing_lawful : someHashing.Lawful :=
  ⟨stdHash_lawful _, stdHash_lawful _, stdHash_lawful _, stdHash_lawful _, stdHash_lawful _, stdHash_lawful _⟩

/-! ## Tables and lists -/

theorem alookup_nil [DecidableEq K] (k : K) : alookup ([] : List (K × V)) k = none := rfl

theorem alookup_cons [DecidableEq K] (k k' : K) (v : V) (l : List (K × V)) :
    alookup ((k, v) :: l) k' = if k' = k then some v else alookup l k' := by
  unfold alookup
  rw [List.find?_cons]
  by_cases h : k = k'
  · rw [if_pos h.symm]
    simp only [h, beq_self_eq_true, Option.map]
  · rw [if_neg (fun e => h e.symm)]
    have : (k == k') = false := by simpa using h
    simp only [this]

theorem mem_alookup [DecidableEq K] {l : List (K × V)} (h : (l.map Prod.fst).Nodup) (k : K) (v : V) :
    (k, v) ∈ l ↔ alookup l k = some v := by
  induction l with
  | nil => simp [alookup_nil]
  | cons x l ih =>
    obtain ⟨k', v'⟩ := x
    rw [List.map_cons, List.nodup_cons] at h
    rw [alookup_cons, List.mem_cons, ih h.2]
    by_cases hk : k = k'
    · subst hk
      rw [if_pos rfl]
      constructor
      · rintro (e | e)
        · cases e; rfl
        · exact absurd (List.mem_map_of_mem ((ih h.2).2 e)) h.1
      · intro e; cases e; exact .inl rfl
    · rw [if_neg hk]
      constructor
      · rintro (e | e)
        · cases e; exact absurd rfl hk
        · exact e
      · exact .inr

/-- The table has the entries of the list. -/
structure MapRel [DecidableEq K] (I : MapImpl K V) (m : I.M) (l : List (K × V)) : Prop where
  get : ∀ k, I.get m k = alookup l k
  keys : (l.map Prod.fst).Nodup

/-- The table has the elements of the list. -/
structure SetRel [DecidableEq K] (I : MapImpl K Unit) (m : I.M) (l : List K) : Prop where
  get : ∀ k, I.get m k = some () ↔ k ∈ l
  nodup : l.Nodup

theorem nodup_of_keys {l : List (K × V)} (h : (l.map Prod.fst).Nodup) : l.Nodup := by
  rw [List.Nodup, List.pairwise_map] at h
  exact h.imp (fun hne e => hne (by rw [e]))

theorem mapRel_empty [DecidableEq K] {I : MapImpl K V} (h : Lawful I) (s : Site) : MapRel I (I.empty s) [] :=
  ⟨fun k => by rw [h.get_empty, alookup_nil], List.nodup_nil⟩

theorem mapRel_insert [DecidableEq K] {I : MapImpl K V} (h : Lawful I) {m : I.M} {l : List (K × V)} (r : MapRel I m l)
    (k : K) (v : V) (hk : alookup l k = none) : MapRel I (I.insert m k v) ((k, v) :: l) := by
  refine ⟨fun k' => by rw [h.get_insert, alookup_cons, r.get], ?_⟩
  rw [List.map_cons, List.nodup_cons]
  refine ⟨fun hm => ?_, r.keys⟩
  obtain ⟨⟨k', v'⟩, hmem, rfl : k' = k⟩ := List.mem_map.1 hm
  rw [(mem_alookup r.keys k' v').1 hmem] at hk
  cases hk

theorem mapRel_len [DecidableEq K] {I : MapImpl K V} (h : Lawful I) {m : I.M} {l : List (K × V)} (r : MapRel I m l) :
    I.len m = l.length := by
  rw [h.len_iter]
  refine List.Perm.length_eq ((List.perm_ext_iff_of_nodup (nodup_of_keys (h.iter_keys m)) (nodup_of_keys r.keys)).2 ?_)
  rintro ⟨k, v⟩
  rw [h.mem_iter, r.get, mem_alookup r.keys]

theorem setRel_empty [DecidableEq K] {I : MapImpl K Unit} (h : Lawful I) (s : Site) : SetRel I (I.empty s) [] :=
  ⟨fun k => by rw [h.get_empty]; simp, List.nodup_nil⟩

theorem setRel_insert [DecidableEq K] {I : MapImpl K Unit} (h : Lawful I) {m : I.M} {l : List K} (r : SetRel I m l)
    (x : K) : SetRel I (I.insert m x ()) (setInsert l x) := by
  constructor
  · intro k
    rw [h.get_insert]
    have : k ∈ setInsert l x ↔ k = x ∨ k ∈ l := by
      unfold setInsert
      split
      · rename_i hx
        exact ⟨.inr, fun e => e.elim (fun e => e ▸ hx) id⟩
      · rw [List.mem_append, List.mem_singleton]; exact Or.comm
    rw [this]
    by_cases hk : k = x
    · rw [if_pos hk]; simp [hk]
    · rw [if_neg hk, r.get]; simp [hk]
  · unfold setInsert
    split
    · exact r.nodup
    · rename_i hx
      rw [List.nodup_append]
      refine ⟨r.nodup, by simp, ?_⟩
      intro a ha b hb e
      rw [List.mem_singleton] at hb
      subst hb; subst e; exact hx ha

theorem setRel_extend [DecidableEq K] {I : MapImpl K Unit} (h : Lawful I) (xs : List K) : ∀ {m : I.M} {l : List K},
    SetRel I m l → SetRel I (extend I m xs) (setExtend l xs) := by
  induction xs with
  | nil => exact fun r => r
  | cons x xs ih => exact fun r => ih (setRel_insert h r x)

theorem setRel_of_mem [DecidableEq K] {I : MapImpl K Unit} {m : I.M} {l l' : List K} (r : SetRel I m l)
    (hn : l'.Nodup) (hm : ∀ k, k ∈ l ↔ k ∈ l') : SetRel I m l' := ⟨fun k => (r.get k).trans (hm k), hn⟩

theorem mem_setExtend [DecidableEq K] (xs : List K) : ∀ (l : List K) (k : K),
    k ∈ setExtend l xs ↔ k ∈ l ∨ k ∈ xs := by
  induction xs with
  | nil => intro l k; simp [setExtend]
  | cons x xs ih =>
    intro l k
    show k ∈ setExtend (setInsert l x) xs ↔ _
    rw [ih]
    have : k ∈ setInsert l x ↔ k = x ∨ k ∈ l := by
      unfold setInsert
      split
      · rename_i hx
        exact ⟨.inr, fun e => e.elim (fun e => e ▸ hx) id⟩
      · rw [List.mem_append, List.mem_singleton]; exact Or.comm
    rw [this, List.mem_cons]
    constructor
    · rintro ((e | e) | e)
      · exact .inr (.inl e)
      · exact .inl e
      · exact .inr (.inr e)
    · rintro (e | e | e)
      · exact .inl (.inr e)
      · exact .inl (.inl e)
      · exact .inr e

theorem nodup_setExtend [DecidableEq K] (xs : List K) : ∀ (l : List K), l.Nodup → (setExtend l xs).Nodup := by
  induction xs with
  | nil => exact fun l h => h
  | cons x xs ih =>
    intro l h
    refine ih _ ?_
    unfold setInsert
    split
    · exact h
    · rename_i hx
      rw [List.nodup_append]
      refine ⟨h, by simp, ?_⟩
      intro a ha b hb e
      rw [List.mem_singleton] at hb
      subst hb; subst e; exact hx ha

/-- Going through the table meets the elements of the list, in some order. -/
theorem setRel_iter [DecidableEq K] {I : MapImpl K Unit} (h : Lawful I) {m : I.M} {l : List K} (r : SetRel I m l) :
    ((I.iter m).map Prod.fst).Perm l := by
  refine (List.perm_ext_iff_of_nodup (h.iter_keys m) r.nodup).2 (fun k => ?_)
  rw [← r.get k, ← h.mem_iter, List.mem_map]
  constructor
  · rintro ⟨⟨k', u⟩, hm, rfl : k' = k⟩; cases u; exact hm
  · exact fun hm => ⟨_, hm, rfl⟩

/-- Extending by all of one table is extending by its list. -/
theorem setRel_union [DecidableEq K] {I : MapImpl K Unit} (h : Lawful I) {m n : I.M} {l t : List K}
    (r : SetRel I m l) (q : SetRel I n t) : SetRel I (extend I m ((I.iter n).map Prod.fst)) (setExtend l t) := by
  refine setRel_of_mem (setRel_extend h _ r) (nodup_setExtend _ _ r.nodup) (fun k => ?_)
  rw [mem_setExtend, mem_setExtend, (setRel_iter h q).mem_iff]

/-! ## The report manager -/

variable {H : Hashing}

/-- The report manager holds the same reports, entries and keys. -/
structure RmRel (s : ReportManager H) (r : Rescan.ReportManager) : Prop where
  limit : s.limitReportCount = r.limitReportCount
  ids : s.reportIds = r.reportIds
  internal : MapRel H.reports s.reportIdToInternalMap r.reportIdToInternalMap
  external : MapRel H.external s.externalIdMap r.externalIdMap
  keys : MapRel H.ekeys s.toExhaustibleKeyMap r.toExhaustibleKeyMap
  exhaust : s.globalExhaust = r.globalExhaust

theorem rm_new (h : H.Lawful) (g : Grey) : RmRel (ReportManager.new g : ReportManager H) (Rescan.ReportManager.new g) :=
  ⟨rfl, rfl, mapRel_empty h.reports _, mapRel_empty h.external _, mapRel_empty h.ekeys _, rfl⟩

theorem rm_internal (h : H.Lawful) {s : ReportManager H} {r : Rescan.ReportManager} (hr : RmRel s r) (ir : Report) :
    Agree (fun x y => RmRel x.1 y.1 ∧ x.2 = y.2) (s.getInternalId ir) (r.getInternalId ir) := by
  unfold ReportManager.getInternalId Rescan.ReportManager.getInternalId Rescan.ReportManager.numReports
  rw [hr.internal.get, hr.limit, hr.ids]
  cases ha : alookup r.reportIdToInternalMap ir with
  | some id => exact .ok ⟨hr, rfl⟩
  | none =>
    dsimp only
    split
    · exact .ok ⟨hr, rfl⟩
    · refine Agree.bind (Agree.refl _) ?_
      rintro size _ rfl
      exact .ok ⟨⟨rfl, rfl, mapRel_insert h.reports hr.internal ir size ha, hr.external, hr.keys, hr.exhaust⟩, rfl⟩

theorem rm_register (h : H.Lawful) {s : ReportManager H} {r : Rescan.ReportManager} (hr : RmRel s r) (id : Nat)
    (ext : ExternalReportInfo) :
    RmRel (s.registerExtReport id ext).1 (r.registerExtReport id ext).1 ∧
      (s.registerExtReport id ext).2 = (r.registerExtReport id ext).2 := by
  unfold ReportManager.registerExtReport Rescan.ReportManager.registerExtReport
  have fin : ∀ {s : ReportManager H} {r : Rescan.ReportManager}, RmRel s r →
      RmRel (if !ext.highlander then { s with globalExhaust := false } else s)
        (if !ext.highlander then { r with globalExhaust := false } else r) := by
    intro s r hr
    split
    · exact ⟨hr.limit, hr.ids, hr.internal, hr.external, hr.keys, rfl⟩
    · exact hr
  dsimp only
  rw [hr.external.get]
  cases ha : alookup r.externalIdMap id with
  | some eri =>
    dsimp only
    split
    · exact ⟨hr, rfl⟩
    · exact ⟨fin hr, rfl⟩
  | none =>
    exact ⟨fin ⟨hr.limit, hr.ids, hr.internal, mapRel_insert h.external hr.external id ext ha, hr.keys, hr.exhaust⟩, rfl⟩

theorem rm_key (h : H.Lawful) {s : ReportManager H} {r : Rescan.ReportManager} (hr : RmRel s r) (a : Nat) :
    Agree (fun x y => RmRel x.1 y.1 ∧ x.2 = y.2) (s.getExhaustibleKey a : Outcome ε _) (r.getExhaustibleKey a) := by
  unfold ReportManager.getExhaustibleKey Rescan.ReportManager.getExhaustibleKey
  rw [mapRel_len h.ekeys hr.keys]
  refine Agree.bind (Agree.refl _) ?_
  rintro size _ rfl
  rw [hr.keys.get]
  cases ha : alookup r.toExhaustibleKeyMap (a : Int) with
  | some k => exact .ok ⟨hr, rfl⟩
  | none => exact .ok ⟨⟨hr.limit, hr.ids, hr.internal, hr.external, mapRel_insert h.ekeys hr.keys _ size ha,
      hr.exhaust⟩, rfl⟩

/-! ## Graphs with other weights -/

/-- The same edges; weights related one by one. -/
structure GRel {M N : Type} (R : M → N → Prop) (g : Graph M) (k : Graph N) : Prop where
  edges : g.edges = k.edges
  len : g.nodes.length = k.nodes.length
  at_ : ∀ (i : Nat) (a : M) (b : N), g.nodes[i]? = some a → k.nodes[i]? = some b → R a b

variable {M N : Type} {R : M → N → Prop}

theorem gRel_node {g : Graph M} {k : Graph N} (h : GRel R g k) {a : M} {b : N} (hab : R a b) :
    Agree (fun x y => GRel R x.1 y.1 ∧ x.2 = y.2) (g.addNode a : Outcome ε _) (k.addNode b) := by
  unfold Graph.addNode
  rw [h.len]
  split
  · exact .panic _
  · refine .ok ⟨⟨h.edges, by simp [h.len], ?_⟩, rfl⟩
    intro i x y hx hy
    dsimp only at hx hy
    by_cases hi : i < g.nodes.length
    · rw [List.getElem?_append_left hi] at hx
      rw [List.getElem?_append_left (h.len ▸ hi)] at hy
      exact h.at_ i x y hx hy
    · rw [List.getElem?_append_right (by omega)] at hx
      rw [List.getElem?_append_right (by rw [← h.len]; omega), ← h.len] at hy
      cases hj : i - g.nodes.length with
      | zero => rw [hj] at hx hy; cases hx; cases hy; exact hab
      | succ j => rw [hj] at hx; cases hx

theorem gRel_edge {g : Graph M} {k : Graph N} (h : GRel R g k) (a b : Nat) :
    Agree (GRel R) (g.addEdge a b : Outcome ε _) (k.addEdge a b) := by
  unfold Graph.addEdge
  rw [h.len, h.edges]
  split
  · exact .panic _
  split
  · exact .ok ⟨rfl, h.len, h.at_⟩
  · exact .panic _

theorem gRel_modify {g : Graph M} {k : Graph N} (h : GRel R g k) (i : Nat) (f : M → M) (f' : N → N)
    (hf : ∀ a b, R a b → R (f a) (f' b)) :
    GRel R { g with nodes := g.nodes.modify i f } { k with nodes := k.nodes.modify i f' } := by
  refine ⟨h.edges, by simp [h.len], ?_⟩
  intro j x y hx hy
  dsimp only at hx hy
  rw [List.getElem?_modify] at hx hy
  cases hg : g.nodes[j]? with
  | none => rw [hg] at hx; cases hx
  | some a =>
    cases hk : k.nodes[j]? with
    | none => rw [hk] at hy; cases hy
    | some b =>
      rw [hg] at hx; rw [hk] at hy
      have hab := h.at_ j a b hg hk
      by_cases hij : i = j
      · simp only [if_pos hij] at hx hy; cases hx; cases hy; exact hf _ _ hab
      · simp only [if_neg hij] at hx hy; cases hx; cases hy; exact hab

/-- Corresponding vertices: both there, or neither. -/
theorem gRel_cases {g : Graph M} {k : Graph N} (h : GRel R g k) (i : Nat) :
    (g.nodes[i]? = none ∧ k.nodes[i]? = none) ∨ ∃ a b, g.nodes[i]? = some a ∧ k.nodes[i]? = some b ∧ R a b := by
  by_cases hi : i < g.nodes.length
  · refine .inr ⟨g.nodes[i], k.nodes[i]'(h.len ▸ hi), List.getElem?_eq_getElem hi, List.getElem?_eq_getElem _, ?_⟩
    exact h.at_ i _ _ (List.getElem?_eq_getElem hi) (List.getElem?_eq_getElem _)
  · exact .inl ⟨List.getElem?_eq_none (by omega), List.getElem?_eq_none (by rw [← h.len]; omega)⟩

/-! ## Tries -/

/-- The same byte and the same set of reports. -/
def VRel (a : LitTrieVertexProps H) (b : Rescan.LitTrieVertexProps) : Prop :=
  a.c = b.c ∧ SetRel H.ids a.reports b.reports

/-- The same trie. -/
structure TRel (s : LitTrie H) (t : Rescan.LitTrie) : Prop where
  inner : GRel VRel s.inner t.inner
  root : s.root = t.root

theorem trie_default (h : H.Lawful) (s : Site) : TRel (LitTrie.default s : LitTrie H) Rescan.LitTrie.default := by
  refine ⟨⟨rfl, rfl, ?_⟩, rfl⟩
  intro i a b ha hb
  cases i with
  | zero => cases ha; cases hb; exact ⟨rfl, setRel_empty h.ids _⟩
  | succ i => cases ha

theorem findChild_eq {s : LitTrie H} {t : Rescan.LitTrie} (r : TRel s t) (u : Nat) (c : U8) :
    s.findChild u c = t.findChild u c := by
  unfold LitTrie.findChild Rescan.LitTrie.findChild Graph.outgoing
  rw [r.inner.edges]
  congr 1
  funext v
  rcases gRel_cases r.inner v with ⟨h1, h2⟩ | ⟨a, b, h1, h2, h3⟩
  · rw [h1, h2]
  · rw [h1, h2]
    dsimp only
    rw [h3.1]

theorem descend_agree (h : H.Lawful) (site : Site) {s : LitTrie H} {t : Rescan.LitTrie} (r : TRel s t) (u : Nat)
    (c : U8) : Agree (fun x y => TRel x.1 y.1 ∧ x.2 = y.2) (LitTrie.descend site (s, u) c : Outcome ε _)
      (Rescan.LitTrie.descend (t, u) c) := by
  unfold LitTrie.descend Rescan.LitTrie.descend
  dsimp only
  rw [findChild_eq r]
  cases t.findChild u c with
  | some v => exact .ok ⟨r, rfl⟩
  | none =>
    refine Agree.bind (gRel_node r.inner (a := ⟨c, _⟩) (b := ⟨c, []⟩) ⟨rfl, setRel_empty h.ids _⟩) ?_
    rintro ⟨g, n⟩ ⟨g', n'⟩ ⟨hg, rfl : n = n'⟩
    refine Agree.bind (gRel_edge hg u n) (fun a b hab => ?_)
    exact .ok ⟨⟨hab, r.root⟩, rfl⟩

theorem descends_agree (h : H.Lawful) (site : Site) : ∀ (cs : List U8) {s : LitTrie H} {t : Rescan.LitTrie},
    TRel s t → ∀ u, Agree (fun x y => TRel x.1 y.1 ∧ x.2 = y.2)
      (cs.foldlM (LitTrie.descend site) (s, u) : Outcome ε _) (cs.foldlM Rescan.LitTrie.descend (t, u))
  | [], s, t, r, u => .ok ⟨r, rfl⟩
  | c :: cs, s, t, r, u => by
    rw [List.foldlM_cons, List.foldlM_cons]
    refine Agree.bind (descend_agree h site r u c) ?_
    rintro ⟨s', v⟩ ⟨t', v'⟩ ⟨r', rfl : v = v'⟩
    exact descends_agree h site cs r' v

theorem addToTrie_agree (h : H.Lawful) (site : Site) (l : Ue2Literal) (x : Nat) {s : LitTrie H} {t : Rescan.LitTrie}
    (r : TRel s t) : Agree (fun a b => TRel a.1 b.1 ∧ a.2 = b.2) (addToTrie site l x s : Outcome ε _)
      (Rescan.addToTrie l x t) := by
  unfold addToTrie Rescan.addToTrie
  rw [r.root]
  refine Agree.bind (descends_agree h site _ r _) ?_
  rintro ⟨s', v⟩ ⟨t', v'⟩ ⟨r', rfl : v = v'⟩
  dsimp only
  rw [r'.inner.len]
  split
  · have hm := gRel_modify r'.inner v (fun w => { w with reports := H.ids.insert w.reports x () })
      (fun w => { w with reports := setInsert w.reports x }) (fun a b hab => ⟨hab.1, setRel_insert h.ids hab.2 x⟩)
    refine .ok ⟨⟨hm, r'.root⟩, ?_⟩
    have := hm.len
    dsimp only at this ⊢
    rw [this]
  · exact .panic _

/-- The same builder. -/
structure SwRel (s : SmallWriteBuild H) (b : Rescan.SmallWriteBuild) : Prop where
  grey : s.grey = b.grey
  litTrie : TRel s.litTrie b.litTrie
  litTrieNocase : TRel s.litTrieNocase b.litTrieNocase
  numLiterals : s.numLiterals = b.numLiterals
  poisoned : s.poisoned = b.poisoned

theorem sw_new (h : H.Lawful) (n : Nat) (g : Grey) :
    SwRel (SmallWriteBuild.new n g : SmallWriteBuild H) (Rescan.SmallWriteBuild.new n g) :=
  ⟨rfl, trie_default h _, trie_default h _, rfl, rfl⟩

theorem sw_addLiteral (h : H.Lawful) {s : SmallWriteBuild H} {b : Rescan.SmallWriteBuild} (r : SwRel s b)
    (l : Ue2Literal) (x : Nat) : Agree SwRel (s.addLiteral l x : Outcome ε _) (b.addLiteral l x) := by
  unfold SmallWriteBuild.addLiteral Rescan.SmallWriteBuild.addLiteral
  dsimp only
  rw [r.poisoned, r.grey, r.numLiterals]
  split
  · exact .ok r
  split
  · exact .ok r
  split
  · exact .ok ⟨rfl, r.litTrie, r.litTrieNocase, rfl, rfl⟩
  split
  · refine Agree.bind (addToTrie_agree h [4] l x r.litTrieNocase) ?_
    rintro ⟨t, fits⟩ ⟨t', fits'⟩ ⟨ht, rfl : fits = fits'⟩
    exact .ok ⟨rfl, r.litTrie, ht, rfl, rfl⟩
  · refine Agree.bind (addToTrie_agree h [3] l x r.litTrie) ?_
    rintro ⟨t, fits⟩ ⟨t', fits'⟩ ⟨ht, rfl : fits = fits'⟩
    exact .ok ⟨rfl, ht, r.litTrieNocase, rfl, rfl⟩

/-! ## The NFA graph -/

/-- The same bytes, flags and set of reports. -/
def PRel (a : NfaGraphVertexProps H) (b : Rescan.NfaGraphVertexProps) : Prop :=
  a.charReach = b.charReach ∧ SetRel H.ids a.reports b.reports ∧ a.assertFlags = b.assertFlags

theorem props_default (h : H.Lawful) (s : Site) :
    PRel (NfaGraphVertexProps.default s : NfaGraphVertexProps H) Rescan.NfaGraphVertexProps.default :=
  ⟨rfl, setRel_empty h.ids s, rfl⟩

/-- The same graph. -/
structure HRel (s : NgHolder H) (h : Rescan.NgHolder) : Prop where
  inner : GRel PRel s.inner h.inner
  start : s.start = h.start
  startDs : s.startDs = h.startDs
  accept : s.accept = h.accept
  acceptEod : s.acceptEod = h.acceptEod

theorem reach_agree {s : Graph (NfaGraphVertexProps H)} {g : Graph Rescan.NfaGraphVertexProps} (r : GRel PRel s g)
    (i : Nat) (f : CharReach → CharReach) :
    Agree (GRel PRel) (NgHolder.modifyReach s i f : Outcome ε _) (Rescan.NgHolder.modifyReach g i f) := by
  unfold NgHolder.modifyReach Rescan.NgHolder.modifyReach
  rw [r.len]
  split
  · exact .ok (gRel_modify r i _ _ (fun a b hab => ⟨by dsimp only; rw [hab.1], hab.2⟩))
  · exact .panic _

theorem holder_new (h : H.Lawful) (s : Site) : Agree HRel (NgHolder.new s : Outcome ε (NgHolder H)) Rescan.NgHolder.new := by
  unfold NgHolder.new Rescan.NgHolder.new
  have h0 : GRel PRel (Graph.new : Graph (NfaGraphVertexProps H)) (Graph.new : Graph Rescan.NfaGraphVertexProps) :=
    ⟨rfl, rfl, fun i a b ha => by cases ha⟩
  refine Agree.bind (gRel_node h0 (props_default h _)) ?_
  rintro ⟨g, a⟩ ⟨g', a'⟩ ⟨h0, rfl : a = a'⟩
  refine Agree.bind (gRel_node h0 (props_default h _)) ?_
  rintro ⟨g, b⟩ ⟨g', b'⟩ ⟨h0, rfl : b = b'⟩
  refine Agree.bind (gRel_node h0 (props_default h _)) ?_
  rintro ⟨g, c⟩ ⟨g', c'⟩ ⟨h0, rfl : c = c'⟩
  refine Agree.bind (gRel_node h0 (props_default h _)) ?_
  rintro ⟨g, d⟩ ⟨g', d'⟩ ⟨h0, rfl : d = d'⟩
  refine Agree.bind (gRel_edge h0 a b) (fun _ _ h0 => ?_)
  refine Agree.bind (gRel_edge h0 b b) (fun _ _ h0 => ?_)
  refine Agree.bind (gRel_edge h0 c d) (fun _ _ h0 => ?_)
  refine Agree.bind (reach_agree h0 a _) (fun _ _ h0 => ?_)
  refine Agree.bind (reach_agree h0 b _) (fun _ _ h0 => ?_)
  exact .ok ⟨h0, rfl, rfl, rfl, rfl⟩

theorem foldReports_rel (h : H.Lawful) {s : NgHolder H} {g : Rescan.NgHolder} (r : GRel PRel s.inner g.inner) :
    ∀ (vs : List Nat) {m : H.ids.M} {l : List Nat}, SetRel H.ids m l →
    SetRel H.ids (s.foldReports m vs) (vs.foldl (fun u v => setExtend u (g.reportsAt v)) l)
  | [], m, l, q => q
  | v :: vs, m, l, q => by
    unfold NgHolder.foldReports
    rw [List.foldl_cons, List.foldl_cons]
    refine foldReports_rel h r vs ?_
    unfold Rescan.NgHolder.reportsAt
    rcases gRel_cases r v with ⟨h1, h2⟩ | ⟨a, b, h1, h2, h3⟩
    · rw [h1, h2]; exact q
    · rw [h1, h2]; exact setRel_union h.ids q h3.2.1

theorem allReports_rel (h : H.Lawful) {s : NgHolder H} {g : Rescan.NgHolder} (r : HRel s g) (site : Site) :
    SetRel H.ids (s.allReports site) g.allReports := by
  unfold NgHolder.allReports Rescan.NgHolder.allReports Graph.incoming
  rw [r.inner.edges, r.accept, r.acceptEod]
  exact foldReports_rel h r.inner _ (foldReports_rel h r.inner _ (setRel_empty h.ids site))

/-- The same builder. -/
structure NRel (s : NfaBuilder H) (b : Rescan.NfaBuilder) : Prop where
  graph : HRel s.graph b.graph
  expr : s.expr = b.expr

theorem nfa_new (h : H.Lawful) (e : ExpressionInfo) :
    Agree NRel (NfaBuilder.new e : Outcome ε (NfaBuilder H)) (Rescan.NfaBuilder.new e) := by
  unfold NfaBuilder.new Rescan.NfaBuilder.new
  exact Agree.bind (holder_new h _) (fun _ _ h => .ok ⟨h, rfl⟩)

theorem nfa_position (h : H.Lawful) {s : NfaBuilder H} {b : Rescan.NfaBuilder} (r : NRel s b) :
    Agree (fun x y => NRel x.1 y.1 ∧ x.2 = y.2) (s.makePosition : Outcome ε _) b.makePosition := by
  unfold NfaBuilder.makePosition Rescan.NfaBuilder.makePosition NgHolder.addVertex Rescan.NgHolder.addVertex
  refine Agree.bind (R := fun x y => HRel x.1 y.1 ∧ x.2 = y.2) ?_ ?_
  · refine Agree.bind (gRel_node r.graph.inner (props_default h _)) ?_
    rintro ⟨g, a⟩ ⟨g', a'⟩ ⟨h0, rfl : a = a'⟩
    exact .ok ⟨⟨h0, r.graph.start, r.graph.startDs, r.graph.accept, r.graph.acceptEod⟩, rfl⟩
  · rintro ⟨g, a⟩ ⟨g', a'⟩ ⟨h0, rfl : a = a'⟩
    exact .ok ⟨⟨h0, r.expr⟩, rfl⟩

theorem nfa_reach {s : NfaBuilder H} {b : Rescan.NfaBuilder} (r : NRel s b) (pos : Nat) (cr : CharReach) :
    Agree NRel (s.addCharReach pos cr : Outcome ε _) (b.addCharReach pos cr) := by
  unfold NfaBuilder.addCharReach Rescan.NfaBuilder.addCharReach
  refine Agree.bind (reach_agree r.graph.inner pos _) (fun _ _ h0 => ?_)
  exact .ok ⟨⟨h0, r.graph.start, r.graph.startDs, r.graph.accept, r.graph.acceptEod⟩, r.expr⟩

theorem nfa_flag {s : NfaBuilder H} {b : Rescan.NfaBuilder} (r : NRel s b) (pos : Nat) :
    (s.getAssertFlag pos : Outcome ε _) = b.getAssertFlag pos := by
  unfold NfaBuilder.getAssertFlag Rescan.NfaBuilder.getAssertFlag Graph.weight
  rcases gRel_cases r.graph.inner pos with ⟨h1, h2⟩ | ⟨a, c, h1, h2, h3⟩
  · rw [h1, h2]; rfl
  · rw [h1, h2]
    show (Outcome.ok a.assertFlags : Outcome ε _) = .ok c.assertFlags
    rw [h3.2.2]

/-- The same successors: a set for the same positions, with the same elements. -/
def SuccRel (m : H.successors.M) (l : List (Nat × List PositionInfo)) : Prop :=
  ∀ k, (H.successors.get m k = none ∧ alookup l k = none) ∨
    ∃ s t, H.successors.get m k = some s ∧ alookup l k = some t ∧ SetRel H.positions s t

theorem alookup_addSuccessors (pos : Nat) (to : List PositionInfo) (k : Nat) : ∀ l : List (Nat × List PositionInfo),
    alookup (Rescan.GlushkovBuildState.addSuccessors l pos to) k =
      if k = pos then some (setExtend ((alookup l pos).getD []) to) else alookup l k
  | [] => by
    unfold Rescan.GlushkovBuildState.addSuccessors
    rw [alookup_cons, alookup_nil, alookup_nil]; rfl
  | (k', v) :: l => by
    unfold Rescan.GlushkovBuildState.addSuccessors
    by_cases hk : k' = pos
    · subst hk
      rw [if_pos rfl, alookup_cons, alookup_cons, alookup_cons, if_pos (rfl : k' = k')]
      split
      · rfl
      · rfl
    · rw [if_neg hk, alookup_cons, alookup_addSuccessors pos to k l, alookup_cons, alookup_cons,
        if_neg (fun e => hk e.symm : ¬ pos = k')]
      by_cases h1 : k = k'
      · subst h1
        rw [if_pos rfl, if_neg hk, if_pos rfl]
      · rw [if_neg h1, if_neg h1]

theorem succ_add (h : H.Lawful) (i : Nat) {m : H.successors.M} {l : List (Nat × List PositionInfo)} (r : SuccRel m l)
    (pos : Nat) (to : List PositionInfo) :
    SuccRel (GlushkovBuildState.addSuccessors i m pos to) (Rescan.GlushkovBuildState.addSuccessors l pos to) := by
  intro k
  unfold GlushkovBuildState.addSuccessors
  rw [alookup_addSuccessors, h.successors.get_insert]
  by_cases hk : k = pos
  · rw [if_pos hk, if_pos hk]
    refine .inr ⟨_, _, rfl, rfl, setRel_extend h.positions to ?_⟩
    rcases r pos with ⟨h1, h2⟩ | ⟨s, t, h1, h2, h3⟩
    · rw [h1, h2]; exact setRel_empty h.positions _
    · rw [h1, h2]; exact h3
  · rw [if_neg hk, if_neg hk]; exact r k

/-- The same state. -/
structure BRel (s : GlushkovBuildState H) (b : Rescan.GlushkovBuildState) : Prop where
  startState : s.startState = b.startState
  startDotStarState : s.startDotStarState = b.startDotStarState
  acceptState : s.acceptState = b.acceptState
  acceptEodState : s.acceptEodState = b.acceptEodState
  builder : NRel s.builder b.builder
  successors : SuccRel s.successors b.successors

theorem bs_connect (h : H.Lawful) (p : Profile) {s : GlushkovBuildState H} {b : Rescan.GlushkovBuildState}
    (r : BRel s b) (from_ : PositionInfo) (to : List PositionInfo) :
    Agree BRel (s.connectSuccessors p from_ to : Outcome ε _) (b.connectSuccessors p from_ to) := by
  unfold GlushkovBuildState.connectSuccessors Rescan.GlushkovBuildState.connectSuccessors
  have hf : (s.filterEdges from_ to : Outcome ε _) = b.filterEdges from_ to := by
    unfold GlushkovBuildState.filterEdges Rescan.GlushkovBuildState.filterEdges
    rw [nfa_flag r.builder, r.startDotStarState, r.startState, r.acceptEodState]
  refine Agree.bind (Agree.refl _) (fun _ _ _ => ?_)
  rw [hf]
  refine Agree.bind (Agree.refl _) ?_
  rintro t _ rfl
  dsimp only
  rw [r.acceptState]
  split
  · refine Agree.bind (nfa_position h r.builder) ?_
    rintro ⟨s', v⟩ ⟨b', v'⟩ ⟨hb, rfl : v = v'⟩
    exact .ok ⟨r.startState, r.startDotStarState, rfl, r.acceptEodState, hb, succ_add h _ r.successors _ _⟩
  · exact .ok ⟨r.startState, r.startDotStarState, r.acceptState, r.acceptEodState, r.builder,
      succ_add h _ r.successors _ _⟩

theorem bs_regions (h : H.Lawful) (p : Profile) (firsts : List PositionInfo) : ∀ (lasts : List PositionInfo)
    {s : GlushkovBuildState H} {b : Rescan.GlushkovBuildState}, BRel s b →
    Agree BRel (s.connectRegions p lasts firsts : Outcome ε _) (b.connectRegions p lasts firsts)
  | [], s, b, r => .ok r
  | x :: xs, s, b, r => by
    unfold GlushkovBuildState.connectRegions Rescan.GlushkovBuildState.connectRegions
    rw [List.foldlM_cons, List.foldlM_cons]
    exact Agree.bind (bs_connect h p r x firsts) (fun _ _ r' => bs_regions h p firsts xs r')

theorem bs_new (h : H.Lawful) (p : Profile) {s : NfaBuilder H} {b : Rescan.NfaBuilder} (r : NRel s b) :
    Agree BRel (GlushkovBuildState.new p s : Outcome ε _) (Rescan.GlushkovBuildState.new p b) := by
  unfold GlushkovBuildState.new Rescan.GlushkovBuildState.new
  dsimp only
  rw [r.graph.start, r.graph.startDs, r.graph.accept, r.graph.acceptEod]
  exact bs_regions h p _ _ ⟨rfl, rfl, rfl, rfl, r, fun k => .inl ⟨h.successors.get_empty _ k, rfl⟩⟩

theorem bs_noteClass (h : H.Lawful) {s : GlushkovBuildState H} {b : Rescan.GlushkovBuildState} (r : BRel s b)
    (c : AsciiComponentClass) : Agree BRel (s.noteClass c : Outcome ε _) (b.noteClass c) := by
  unfold GlushkovBuildState.noteClass Rescan.GlushkovBuildState.noteClass
  refine Agree.bind (nfa_position h r.builder) ?_
  rintro ⟨s', v⟩ ⟨b', v'⟩ ⟨hb, rfl : v = v'⟩
  refine Agree.bind (nfa_reach hb v c.cr) (fun _ _ hab => ?_)
  exact .ok ⟨r.startState, r.startDotStarState, r.acceptState, r.acceptEodState, hab, r.successors⟩

mutual
theorem bs_note (h : H.Lawful) : ∀ (c : Component) {s : GlushkovBuildState H} {b : Rescan.GlushkovBuildState},
    BRel s b → Agree BRel (s.noteComponent c : Outcome ε _) (b.noteComponent c)
  | .alternation (.mk cs), s, b, r => by
    unfold GlushkovBuildState.noteComponent Rescan.GlushkovBuildState.noteComponent
    exact bs_noteSeqs h cs r
  | .cls (.ascii c), s, b, r => by
    unfold GlushkovBuildState.noteComponent Rescan.GlushkovBuildState.noteComponent
    exact bs_noteClass h r c
  | .sequence q, s, b, r => by
    unfold GlushkovBuildState.noteComponent Rescan.GlushkovBuildState.noteComponent
    exact bs_noteSeq h q r
theorem bs_noteSeq (h : H.Lawful) : ∀ (q : ComponentSequence) {s : GlushkovBuildState H}
    {b : Rescan.GlushkovBuildState}, BRel s b → Agree BRel (s.noteSequence q : Outcome ε _) (b.noteSequence q)
  | .mk cs _ _ _, s, b, r => by
    unfold GlushkovBuildState.noteSequence Rescan.GlushkovBuildState.noteSequence
    exact bs_noteAll h cs r
theorem bs_noteSeqs (h : H.Lawful) : ∀ (qs : List ComponentSequence) {s : GlushkovBuildState H}
    {b : Rescan.GlushkovBuildState}, BRel s b → Agree BRel (s.noteSequences qs : Outcome ε _) (b.noteSequences qs)
  | [], s, b, r => by
    unfold GlushkovBuildState.noteSequences Rescan.GlushkovBuildState.noteSequences
    exact .ok r
  | q :: qs, s, b, r => by
    unfold GlushkovBuildState.noteSequences Rescan.GlushkovBuildState.noteSequences
    exact Agree.bind (bs_noteSeq h q r) (fun _ _ r' => bs_noteSeqs h qs r')
theorem bs_noteAll (h : H.Lawful) : ∀ (cs : List Component) {s : GlushkovBuildState H}
    {b : Rescan.GlushkovBuildState}, BRel s b → Agree BRel (s.noteComponents cs : Outcome ε _) (b.noteComponents cs)
  | [], s, b, r => by
    unfold GlushkovBuildState.noteComponents Rescan.GlushkovBuildState.noteComponents
    exact .ok r
  | c :: cs, s, b, r => by
    unfold GlushkovBuildState.noteComponents Rescan.GlushkovBuildState.noteComponents
    exact Agree.bind (bs_note h c r) (fun _ _ r' => bs_noteAll h cs r')
end

theorem buildGraph_agree (h : H.Lawful) (p : Profile) (pe : ParsedExpression) :
    Agree NRel (buildGraph p pe : Outcome ε (NfaBuilder H)) (Rescan.buildGraph p pe) := by
  unfold buildGraph Rescan.buildGraph
  refine Agree.bind (nfa_new h pe.expr) (fun s b r => ?_)
  refine Agree.bind (bs_new h p r) (fun s b r => ?_)
  refine Agree.bind (bs_note h pe.component r) (fun s b r => ?_)
  exact .ok r.builder

/-! ## The compiler -/

/-- The same `Ng`. -/
structure NgRel (s : Ng H) (n : Rescan.Ng) : Prop where
  minWidth : s.minWidth = n.minWidth
  rm : RmRel s.rm n.rm
  cc : s.cc = n.cc
  smwr : SwRel s.smwr n.smwr
  rose : s.rose = n.rose

theorem lift_agree {α β : Type} {R : α → β → Prop} {x : Outcome Empty α} {y : Outcome Empty β} (h : Agree R x y) :
    Agree R (Rescan.Ng.lift x) (Rescan.Ng.lift y) := by
  cases h with
  | ok h => exact .ok h
  | err e => exact e.elim
  | panic m => exact .panic m
  | timeout => exact .timeout

theorem ng_addLiteral (h : H.Lawful) (p : Profile) {s : Ng H} {n : Rescan.Ng} (r : NgRel s n) (l : Ue2Literal)
    (i x : Nat) (hi : Bool) (som : SomType) (q : Bool) :
    Agree (fun x y => NgRel x.1 y.1 ∧ x.2 = y.2) (s.addLiteral p l i x hi som q) (n.addLiteral p l i x hi som q) := by
  unfold Ng.addLiteral Rescan.Ng.addLiteral
  rw [r.cc, r.rose]
  refine Agree.bind (Agree.refl _) (fun _ _ _ => ?_)
  split
  · exact .ok ⟨r, rfl⟩
  split
  · exact .ok ⟨r, rfl⟩
  have hreg := rm_register h r.rm x ⟨hi, i⟩
  generalize s.rm.registerExtReport x ⟨hi, i⟩ = a at hreg
  generalize n.rm.registerExtReport x ⟨hi, i⟩ = b at hreg
  obtain ⟨rm, u⟩ := a
  obtain ⟨rm', u'⟩ := b
  obtain ⟨hrm, rfl : u = u'⟩ := hreg
  cases u with
  | error e => exact .err e
  | ok u =>
  dsimp only
  refine Agree.bind (R := fun a b => RmRel a.1 b.1 ∧ a.2 = b.2) ?_ ?_
  · cases som with
    | none =>
      refine Agree.bind (R := fun a b => RmRel a.1 b.1 ∧ a.2 = b.2) ?_ ?_
      · split
        · refine Agree.bind (rm_key h hrm x) ?_
          rintro ⟨a, k⟩ ⟨b, k'⟩ ⟨hk, rfl : k = k'⟩
          exact .ok ⟨hk, rfl⟩
        · exact .ok ⟨hrm, rfl⟩
      · rintro ⟨a, k⟩ ⟨b, k'⟩ ⟨hk, rfl : k = k'⟩
        refine Agree.bind (lift_agree (rm_internal h hk _)) ?_
        rintro ⟨a, k⟩ ⟨b, k'⟩ ⟨hk, rfl : k = k'⟩
        exact .ok ⟨hk, rfl⟩
    | left =>
      refine Agree.bind (Agree.refl _) (fun _ _ _ => ?_)
      refine Agree.bind (lift_agree (rm_internal h hrm _)) ?_
      rintro ⟨a, k⟩ ⟨b, k'⟩ ⟨hk, rfl : k = k'⟩
      exact .ok ⟨hk, rfl⟩
  · rintro ⟨rm, rose, id⟩ ⟨rm', rose', id'⟩ ⟨hk, he⟩
    cases he
    cases id with
    | error e => exact .err e
    | ok id =>
    dsimp only
    generalize Depth.tryFrom l.len = d
    cases d with
    | none => exact .err _
    | some d =>
    refine Agree.bind (sw_addLiteral h r.smwr l id) (fun a b hab => ?_)
    exact .ok ⟨⟨by simp only [r.minWidth], hk, rfl, hab, rfl⟩, rfl⟩

theorem shortcut_agree (h : H.Lawful) (p : Profile) {s : Ng H} {n : Rescan.Ng} (r : NgRel s n) (pe : ParsedExpression) :
    Agree (fun x y => NgRel x.1 y.1 ∧ x.2 = y.2) (shortcutLiteral p s pe) (Rescan.shortcutLiteral p n pe) := by
  unfold shortcutLiteral Rescan.shortcutLiteral
  rw [r.cc]
  split
  · exact .ok ⟨r, rfl⟩
  cases walkComponent p constructLiteralVisitor Ue2Literal.default pe.component with
  | err e => exact .ok ⟨r, rfl⟩
  | panic m => exact .panic m
  | timeout => exact .timeout
  | ok l =>
    dsimp only
    split
    · exact .ok ⟨r, rfl⟩
    · refine Agree.bind (Agree.refl _) ?_
      rintro i _ rfl
      exact ng_addLiteral h p r l _ _ _ _ _

theorem addExpression_agree (h : H.Lawful) (p : Profile) {s : Ng H} {n : Rescan.Ng} (r : NgRel s n) (i : Nat) (e : Str)
    (f : Flags) (id : Nat) : Agree NgRel (addExpression p s i e f id) (Rescan.addExpression p n i e f id) := by
  unfold addExpression Rescan.addExpression
  rw [r.cc]
  split
  · exact .err _
  refine Agree.bind (Agree.refl _) ?_
  rintro pe _ rfl
  dsimp only
  generalize (if pe.expr.prefilter then { pe with component := prefilterTree pe.component } else pe) = pe
  refine Agree.bind (shortcut_agree h p r pe) ?_
  rintro ⟨s', d⟩ ⟨n', d'⟩ ⟨r', rfl : d = d'⟩
  dsimp only
  split
  · exact .ok r'
  · refine Agree.bind (buildGraph_agree h p _) (fun a b hab => ?_)
    refine .ok ?_
    unfold Ng.addGraph Rescan.Ng.addGraph
    rw [hab.expr]
    split
    · exact ⟨r'.minWidth, r'.rm, r'.cc, r'.smwr, by rw [r'.rose]⟩
    · exact r'

theorem addAll_agree (h : H.Lawful) (p : Profile) : ∀ (xs : List (Str × Flags × Nat)) (i : Nat) {s : Ng H}
    {n : Rescan.Ng}, NgRel s n → Agree NgRel (addAll p i s xs) (Rescan.addAll p i n xs)
  | [], i, s, n, r => .ok r
  | (e, f, id) :: xs, i, s, n, r => by
    unfold addAll Rescan.addAll
    have ha := addExpression_agree h p r i e f id
    generalize addExpression p s i e f id = x at ha
    generalize Rescan.addExpression p n i e f id = y at ha
    cases ha with
    | err e => exact (Agree.refl _).bind (fun a b hab => hab ▸ (Agree.refl _).bind (fun a b hab => hab ▸ .err _))
    | panic m => exact .panic m
    | timeout => exact .timeout
    | ok r' => exact addAll_agree h p xs (i + 1) r'

theorem compileNg_agree (h : H.Lawful) (p : Profile) (es : List Str) (fs : List Flags) (ids : List Nat) (mode : Mode)
    (g : Grey) : Agree NgRel (compileNg (H := H) p es fs ids mode g) (Rescan.compileNg p es fs ids mode g) := by
  unfold compileNg Rescan.compileNg
  split
  · exact .err _
  split
  · exact .err _
  · exact addAll_agree h p _ 0 ⟨rfl, rm_new h g, rfl, sw_new h _ g, rfl⟩

/-- A call of the report manager. -/
inductive Call where
  | internal (r : Report)
  | register (id : Nat) (ext : ExternalReportInfo)
  | key (a : Nat)
  | report (id : Nat)

/-- What a call answers. -/
inductive Answer where
  | id (x : Except CompileError Nat)
  | unit (x : Except CompileError Unit)
  | key (k : Nat)
  | report (r : Report)

/-- The answers to a sequence of calls, or the panic that ends it. -/
def answers (s : ReportManager H) : List Call → Outcome Empty (List Answer × Bool)
  | [] => .ok ([], s.globalExhaust)
  | .internal r :: cs => do
    let (s, x) ← s.getInternalId r
    let (as, b) ← answers s cs
    return (.id x :: as, b)
  | .register id ext :: cs => do
    let (as, b) ← answers (s.registerExtReport id ext).1 cs
    return (.unit (s.registerExtReport id ext).2 :: as, b)
  | .key a :: cs => do
    let (s, k) ← s.getExhaustibleKey a
    let (as, b) ← answers s cs
    return (.key k :: as, b)
  | .report id :: cs => do
    let r ← s.getReport id
    let (as, b) ← answers s cs
    return (.report r :: as, b)

/-- The same with association lists. -/
def listAnswers (s : Rescan.ReportManager) : List Call → Outcome Empty (List Answer × Bool)
  | [] => .ok ([], s.globalExhaust)
  | .internal r :: cs => do
    let (s, x) ← s.getInternalId r
    let (as, b) ← listAnswers s cs
    return (.id x :: as, b)
  | .register id ext :: cs => do
    let (as, b) ← listAnswers (s.registerExtReport id ext).1 cs
    return (.unit (s.registerExtReport id ext).2 :: as, b)
  | .key a :: cs => do
    let (s, k) ← s.getExhaustibleKey a
    let (as, b) ← listAnswers s cs
    return (.key k :: as, b)
  | .report id :: cs => do
    let r ← s.getReport id
    let (as, b) ← listAnswers s cs
    return (.report r :: as, b)

theorem answers_eq (h : H.Lawful) : ∀ (cs : List Call) {s : ReportManager H} {r : Rescan.ReportManager}, RmRel s r →
    answers s cs = listAnswers r cs
  | [], s, r, hr => by unfold answers listAnswers; rw [hr.exhaust]
  | .internal x :: cs, s, r, hr => by
    unfold answers listAnswers
    refine Agree.eq (Agree.bind (rm_internal h hr x) ?_)
    rintro ⟨s', a⟩ ⟨r', a'⟩ ⟨h', rfl : a = a'⟩
    dsimp only
    rw [answers_eq h cs h']
    exact Agree.refl _
  | .register id ext :: cs, s, r, hr => by
    unfold answers listAnswers
    obtain ⟨h1, h2⟩ := rm_register h hr id ext
    rw [h2, answers_eq h cs h1]
  | .key a :: cs, s, r, hr => by
    unfold answers listAnswers
    refine Agree.eq (Agree.bind (rm_key h hr a) ?_)
    rintro ⟨s', a⟩ ⟨r', a'⟩ ⟨h', rfl : a = a'⟩
    dsimp only
    rw [answers_eq h cs h']
    exact Agree.refl _
  | .report id :: cs, s, r, hr => by
    unfold answers listAnswers
    rw [answers_eq h cs hr]
    unfold ReportManager.getReport Rescan.ReportManager.getReport
    rw [hr.ids]

/-- **C94.** Whatever is asked of a new report manager, it answers the same on hash tables of any layout as on
association lists, and panics where that does. -/
theorem C94_reports (h : H.Lawful) (g : Grey) (cs : List Call) :
    answers (ReportManager.new g : ReportManager H) cs = listAnswers (Rescan.ReportManager.new g) cs :=
  answers_eq h cs (rm_new h g)

example (cs : List Call) := C94_reports someHashing_lawful Grey.default cs

/-- **C94.** Compiling gives the same outcome whatever the layout and order of the hash tables. -/
theorem C94_compile (h : H.Lawful) (p : Profile) (es : List Str) (fs : List Flags) (ids : List Nat) (mode : Mode)
    (g : Grey) : compileMultiInt H p es fs ids mode g = Rescan.compileMultiInt p es fs ids mode g := by
  unfold compileMultiInt Rescan.compileMultiInt Rescan.build
  refine Agree.eq (Agree.bind (compileNg_agree h p es fs ids mode g) (fun a b r => ?_))
  rw [r.rose]
  exact Agree.refl _

example := C94_compile someHashing_lawful .release ["ab".toList, "c".toList, "a|b".toList] [⟨0⟩, Flags.CASELESS, ⟨0⟩] [1, 1, 3] .block Grey.default

/-- **C94.** Two layouts: the same outcome of compilation. -/
theorem C94_deterministic (H' : Hashing) (h : H.Lawful) (h' : H'.Lawful) (p : Profile) (es : List Str)
    (fs : List Flags) (ids : List Nat) (mode : Mode) (g : Grey) :
    compileMultiInt H p es fs ids mode g = compileMultiInt H' p es fs ids mode g := by
  rw [C94_compile h, C94_compile h']

example := C94_deterministic
  { someHashing with ids := stdHash Nat Unit (fun _ _ => 0) } someHashing_lawful
  { someHashing_lawful with ids := stdHash_lawful _ } .release ["ab".toList, "c".toList, "a|b".toList] [⟨0⟩, Flags.CASELESS, ⟨0⟩] [1, 1, 3] .block Grey.default

/-- Two tries have the same root and edges, and their vertices the same bytes and the same sets of reports. -/
def SameTrie (s : LitTrie H) (t : Rescan.LitTrie) : Prop :=
  s.root = t.root ∧ s.inner.edges = t.inner.edges ∧ s.inner.nodes.map (·.c) = t.inner.nodes.map (·.c) ∧
  ∀ (i : Nat) a b, s.inner.nodes[i]? = some a → t.inner.nodes[i]? = some b →
    ((H.ids.iter a.reports).map Prod.fst).Perm b.reports

theorem same_trie (h : H.Lawful) {s : LitTrie H} {t : Rescan.LitTrie} (r : TRel s t) : SameTrie s t := by
  refine ⟨r.root, r.inner.edges, ?_, fun i a b ha hb => setRel_iter h.ids (r.inner.at_ i a b ha hb).2⟩
  refine List.ext_getElem? (fun i => ?_)
  rw [List.getElem?_map, List.getElem?_map]
  rcases gRel_cases r.inner i with ⟨h1, h2⟩ | ⟨a, b, h1, h2, h3⟩
  · rw [h1, h2]; rfl
  · rw [h1, h2]; exact congrArg some h3.1

/-- **C94.** Before the database is built, too: the same minimum width and settings, the same reports under the same
ids, the same number of match ids and keys, and tries that differ in the order of their sets of reports at most. -/
theorem C94_ng (h : H.Lawful) (p : Profile) (es : List Str) (fs : List Flags) (ids : List Nat) (mode : Mode) (g : Grey) :
    Agree (fun (s : Ng H) n => s.minWidth = n.minWidth ∧ s.cc = n.cc ∧ s.rose = n.rose ∧
        s.rm.reportIds = n.rm.reportIds ∧ s.rm.globalExhaust = n.rm.globalExhaust ∧
        (∀ r, H.reports.get s.rm.reportIdToInternalMap r = alookup n.rm.reportIdToInternalMap r) ∧
        (∀ i, H.external.get s.rm.externalIdMap i = alookup n.rm.externalIdMap i) ∧
        H.external.len s.rm.externalIdMap = n.rm.externalIdMap.length ∧
        (∀ k, H.ekeys.get s.rm.toExhaustibleKeyMap k = alookup n.rm.toExhaustibleKeyMap k) ∧
        H.ekeys.len s.rm.toExhaustibleKeyMap = n.rm.toExhaustibleKeyMap.length ∧
        s.smwr.numLiterals = n.smwr.numLiterals ∧ s.smwr.poisoned = n.smwr.poisoned ∧
        SameTrie s.smwr.litTrie n.smwr.litTrie ∧ SameTrie s.smwr.litTrieNocase n.smwr.litTrieNocase)
      (compileNg (H := H) p es fs ids mode g) (Rescan.compileNg p es fs ids mode g) :=
  (compileNg_agree h p es fs ids mode g).mono (fun s n r =>
    ⟨r.minWidth, r.cc, r.rose, r.rm.ids, r.rm.exhaust, r.rm.internal.get, r.rm.external.get,
      mapRel_len h.external r.rm.external, r.rm.keys.get, mapRel_len h.ekeys r.rm.keys, r.smwr.numLiterals,
      r.smwr.poisoned, same_trie h r.smwr.litTrie, same_trie h r.smwr.litTrieNocase⟩)

example := C94_ng someHashing_lawful .release ["ab".toList, "c".toList, "a|b".toList] [⟨0⟩, Flags.CASELESS, ⟨0⟩] [1, 1, 3] .block Grey.default

/-- **C94.** The state in which the graph of a tree is built has, at every position, the same set of successors, or none
in both; and the graph the same edges, bytes and flags. -/
theorem C94_state (h : H.Lawful) (p : Profile) (pe : ParsedExpression) :
    Agree (fun (s : GlushkovBuildState H) (b : Rescan.GlushkovBuildState) => s.startState = b.startState ∧
        s.startDotStarState = b.startDotStarState ∧ s.acceptState = b.acceptState ∧
        s.acceptEodState = b.acceptEodState ∧
        (∀ k, (H.successors.get s.successors k = none ↔ alookup b.successors k = none) ∧
          ∀ u v, H.successors.get s.successors k = some u → alookup b.successors k = some v →
            ((H.positions.iter u).map Prod.fst).Perm v) ∧
        s.builder.graph.inner.edges = b.builder.graph.inner.edges ∧
        s.builder.graph.inner.nodes.length = b.builder.graph.inner.nodes.length ∧
        ∀ (i : Nat) (u : NfaGraphVertexProps H) (v : Rescan.NfaGraphVertexProps),
          s.builder.graph.inner.nodes[i]? = some u → b.builder.graph.inner.nodes[i]? = some v →
          u.charReach = v.charReach ∧ u.assertFlags = v.assertFlags ∧
            ((H.ids.iter u.reports).map Prod.fst).Perm v.reports)
      (do
        let s ← NfaBuilder.new pe.expr
        let s ← GlushkovBuildState.new p s
        s.noteComponent pe.component : Outcome ε _)
      (do
        let b ← Rescan.NfaBuilder.new pe.expr
        let b ← Rescan.GlushkovBuildState.new p b
        b.noteComponent pe.component) := by
  refine Agree.bind (nfa_new h pe.expr) (fun s b r => ?_)
  refine Agree.bind (bs_new h p r) (fun s b r => ?_)
  refine (bs_note h pe.component r).mono (fun s b r =>
    ⟨r.startState, r.startDotStarState, r.acceptState, r.acceptEodState, fun k => ?_, r.builder.graph.inner.edges,
      r.builder.graph.inner.len, fun i u v hu hv => ?_⟩)
  · rcases r.successors k with ⟨h1, h2⟩ | ⟨u, v, h1, h2, h3⟩
    · rw [h1, h2]; exact ⟨⟨fun _ => rfl, fun _ => rfl⟩, fun u v hu => by cases hu⟩
    · rw [h1, h2]
      refine ⟨⟨fun e => (by cases e), fun e => (by cases e)⟩, fun u' v' hu hv => ?_⟩
      cases hu; cases hv
      exact setRel_iter h.positions h3
  · have := r.builder.graph.inner.at_ i u v hu hv
    exact ⟨this.1, this.2.2, setRel_iter h.ids this.2.1⟩

example (pe : ParsedExpression) := C94_state (ε := Empty) someHashing_lawful .debug pe

/-! ## The one place where the order of a set is visible -/

/-- **C94.** The test of `add_expression` for a report with a minimum length, on ids all of which exist, is independent
of their order. -/
theorem C94_any (rm : ReportManager H) (xs : List Nat) (hx : ∀ id ∈ xs, id < rm.reportIds.length) :
    (SmallWriteBuild.anyMinLength rm xs : Outcome ε _) =
      .ok (xs.any (fun id => match rm.reportIds[id]? with
        | some r => decide (r.minLength > 0)
        | none => false)) := by
  induction xs with
  | nil => rfl
  | cons x xs ih =>
    have hl := hx x (by simp)
    unfold SmallWriteBuild.anyMinLength ReportManager.getReport
    rw [List.any_cons, List.getElem?_eq_getElem hl]
    show (if rm.reportIds[x].minLength > 0 then _ else _) = _
    by_cases hp : rm.reportIds[x].minLength > 0
    · rw [if_pos hp]; simp only [hp, decide_true, Bool.true_or]; rfl
    · rw [if_neg hp, ih (fun id hid => hx id (by simp [hid]))]; simp only [hp, decide_false, Bool.false_or]

example (rm : ReportManager H) (hr : rm.reportIds = [⟨1⟩, ⟨0⟩]) := C94_any (ε := Empty) rm [1, 0]
  (by rw [hr]; decide)

theorem any_perm {xs ys : List Nat} (h : xs.Perm ys) (f : Nat → Bool) : xs.any f = ys.any f := by
  rw [Bool.eq_iff_iff, List.any_eq_true, List.any_eq_true]
  exact ⟨fun ⟨x, hx, hf⟩ => ⟨x, h.mem_iff.1 hx, hf⟩, fun ⟨x, hx, hf⟩ => ⟨x, h.mem_iff.2 hx, hf⟩⟩

theorem anyList_eq (r : Rescan.ReportManager) (xs : List Nat) (hx : ∀ id ∈ xs, id < r.reportIds.length) :
    (Rescan.SmallWriteBuild.anyMinLength r xs : Outcome ε _) =
      .ok (xs.any (fun id => match r.reportIds[id]? with
        | some r => decide (r.minLength > 0)
        | none => false)) := by
  induction xs with
  | nil => rfl
  | cons x xs ih =>
    have hl := hx x (by simp)
    unfold Rescan.SmallWriteBuild.anyMinLength Rescan.ReportManager.getReport
    rw [List.any_cons, List.getElem?_eq_getElem hl]
    show (if r.reportIds[x].minLength > 0 then _ else _) = _
    by_cases hp : r.reportIds[x].minLength > 0
    · rw [if_pos hp]; simp only [hp, decide_true, Bool.true_or]; rfl
    · rw [if_neg hp, ih (fun id hid => hx id (by simp [hid]))]; simp only [hp, decide_false, Bool.false_or]

/-- **C94.** Adding a graph to the small-write builder: the same for every layout, if the reports of the graph exist. -/
theorem C94_add_expression (h : H.Lawful) {sw : SmallWriteBuild H} {b : Rescan.SmallWriteBuild} (hs : SwRel sw b)
    {rm : ReportManager H} {r : Rescan.ReportManager} (hr : RmRel rm r) {s : NgHolder H} {g : Rescan.NgHolder}
    (hg : HRel s g) (hx : ∀ id ∈ g.allReports, id < r.reportIds.length) (expr : ExpressionInfo) :
    Agree SwRel (sw.addExpression rm s expr : Outcome ε _) (b.addExpression r g expr) := by
  unfold SmallWriteBuild.addExpression Rescan.SmallWriteBuild.addExpression
  have hp := setRel_iter h.ids (allReports_rel h hg [6])
  have hv : s.isVacuous = g.isVacuous := by
    unfold NgHolder.isVacuous Rescan.NgHolder.isVacuous Graph.hasEdge
    rw [hg.inner.edges, hg.start, hg.startDs, hg.accept, hg.acceptEod]
  have hpo : SwRel { sw with poisoned := true } { b with poisoned := true } :=
    ⟨hs.grey, hs.litTrie, hs.litTrieNocase, hs.numLiterals, rfl⟩
  rw [hs.poisoned, hv]
  split
  · exact .ok hs
  split
  · exact .ok hpo
  split
  · exact .ok hpo
  · rw [C94_any rm _ (fun id hid => by rw [hr.ids]; exact hx id (hp.mem_iff.1 hid)), anyList_eq r _ hx, hr.ids,
      any_perm hp]
    show Agree SwRel (if _ then _ else _) (if _ then _ else _)
    split
    · exact .ok hpo
    · exact .panic _

/-! ## Concrete cases -/

/-- A literal, a caseless literal with the same id and an alternation, compiled on those tables. -/
example : (compileMultiInt someHashing .release ["ab".toList, "c".toList, "a|b".toList]
    [⟨0⟩, Flags.CASELESS, ⟨0⟩] [1, 1, 3] .block Grey.default).isOk = true := by
  rw [C94_compile someHashing_lawful]
  decide +kernel

/-- With an id that does not exist the order decides between an answer and a panic: the condition of
`C94_add_expression` is needed. -/
example (rm : ReportManager H) (hr : rm.reportIds = [⟨1⟩]) :
    (SmallWriteBuild.anyMinLength rm [0, 5] : Outcome Empty _) = .ok true ∧
    (SmallWriteBuild.anyMinLength rm [5, 0] : Outcome Empty _).isPanic = true := by
  unfold SmallWriteBuild.anyMinLength ReportManager.getReport
  rw [hr]
  exact ⟨rfl, rfl⟩

end Rescan.Hashed
