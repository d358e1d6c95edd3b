/-! # Specification of id assignment over a history of requests -/
namespace Rescan.Spec

/-- An abstract numbering service: `seen` holds the distinct keys numbered so far, in order.  A known
key gets its position; an unknown key gets the next number, or is refused (`none`) when `limit` keys
are held. -/
def assign {α : Type} [DecidableEq α] (limit : Nat) (seen : List α) (k : α) : List α × Option Nat :=
  if k ∈ seen then (seen, some (seen.idxOf k))
  else if limit ≤ seen.length then (seen, none)
  else (seen ++ [k], some seen.length)

/-- A list has at most `n` different elements. -/
def AtMost {α : Type} (n : Nat) (l : List α) : Prop :=
  ∀ d : List α, d.Nodup → (∀ x ∈ d, x ∈ l) → d.length ≤ n

/-- The numbering service over a history: the keys held at the end and all answers. -/
def assignAll {α : Type} [DecidableEq α] (limit : Nat) : List α → List α → List α × List (Option Nat)
  | seen, [] => (seen, [])
  | seen, k :: ks =>
    let r := assign limit seen k
    let rest := assignAll limit r.1 ks
    (rest.1, r.2 :: rest.2)

/-- The first entry for `id` in a history of registrations. -/
def firstFor {β : Type} (hist : List (Nat × β)) (id : Nat) : Option β :=
  (hist.find? (fun e => e.1 == id)).map Prod.snd

end Rescan.Spec
