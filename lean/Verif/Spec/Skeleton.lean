import Verif.Spec.Express
/-! # Specification of texts alike but for their plain characters -/
namespace Rescan.Spec

/-- The texts have the same special characters in the same places, and between them characters of the
same length in UTF-8. -/
def SameShape : Str → Str → Prop
  | [], [] => True
  | c :: s, d :: t => (c = d ∨ (¬ special c ∧ ¬ special d ∧ c.utf8Size = d.utf8Size)) ∧ SameShape s t
  | _, _ => False

instance decSameShape : (s t : Str) → Decidable (SameShape s t)
  | [], [] => isTrue trivial
  | c :: s, d :: t =>
    have := decSameShape s t
    inferInstanceAs (Decidable ((c = d ∨ (¬ special c ∧ ¬ special d ∧ c.utf8Size = d.utf8Size)) ∧ SameShape s t))
  | [], _ :: _ => isFalse id
  | _ :: _, [] => isFalse id

/-- The same, of what follows the control verb, which is the same if there is one. -/
def SameSkeleton (s t : Str) : Prop :=
  (NoVerb s ∧ NoVerb t ∧ SameShape s t) ∨
    ∃ v b b', HasVerb s v b ∧ HasVerb t v b' ∧ SameShape b b'

/-- Position by position the same skeleton. -/
def SameSkeletons : List Str → List Str → Prop
  | [], [] => True
  | s :: ss, t :: ts => SameSkeleton s t ∧ SameSkeletons ss ts
  | _, _ => False

/-- The text with each plain character replaced by the one `f` gives for it. -/
def renamed (f : U8 → U8) (s : Str) : Str :=
  s.map (fun c => if c.toNat < 128 ∧ ¬ special c then Char.ofNat (f (BitVec.ofNat 8 c.toNat)).toNat else c)

end Rescan.Spec
