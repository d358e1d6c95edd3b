import Verif.Spec.Reference
/-! # What the mended compiler returns, as one short program

Like `Spec/Reference.lean`, for the compiler of `Model/Mended.lean` (which is not code that exists).  There is
one program for both build profiles and it never panics. -/
namespace Rescan.Spec.Mended

/-- Reading a body from byte `k` on, the groups opened at the bytes `opens` (innermost first) being open. -/
def walk : Nat → List Nat → Str → Except CompileError Unit
  | _, [], [] => .ok ()
  | _, k :: _, [] => .error ⟨.parse,
      "Missing close parenthesis for group started at index " ++ toString k ++ ".", none⟩
  | k, opens, c :: rest =>
    if c = '(' then walk (k + 1) (k :: opens) rest
    else if c = ')' then
      match opens with
      | [] => .error ⟨.locatedParse, "Unmatched parentheses", none⟩
      | _ :: opens => walk (k + 1) opens rest
    else if c.toNat < 128 then walk (k + 1) opens rest
    else .error ⟨.locatedParse, "Unsupported character", none⟩

/-- Reading a text. -/
def read (text : Str) : Except CompileError Unit :=
  match Reference.verb text with
  | none => walk 0 [] text
  | some (v, body) =>
    if v ∈ Reference.obeyed then walk (v.length + 3) [] body
    else if Reference.unsupported v then
      .error ⟨.locatedParse, "Unsupported control verb " ++ String.ofList v ++ " at index 2", none⟩
    else .error ⟨.locatedParse, "Unknown control verb " ++ String.ofList v ++ " at index 2", none⟩

/-- Can the rest of a body match the empty string?  Of the innermost group so far: could a finished
alternative be empty (`done`), could the current one (`now`)?  `outer` are the same two answers for the
groups around it. -/
def empty : Bool → Bool → List (Bool × Bool) → Str → Bool
  | done, now, _, [] => done || now
  | done, now, outer, c :: rest =>
    if c = '(' then empty false true ((done, now) :: outer) rest
    else if c = ')' then
      match outer with
      | [] => false
      | (done', now') :: outer => empty done' (now' && (done || now)) outer rest
    else if c = '|' then empty (done || now) true outer rest
    else empty done false outer rest

/-- The error about two expressions with the same id that disagree about SINGLEMATCH. -/
def disagreement (j id : Nat) (single : Bool) (old : Reference.Noted) : String :=
  "Expression (index " ++ toString j ++ ") with match ID " ++ toString id ++ " "
    ++ (if single then "specified " else "did not sepcify ")
    ++ " SINGLEMATCH whereas previous expression (index " ++ toString old.index
    ++ ") with the same match ID did" ++ (if old.single then "." else " not.")

/-- Noting the report id of the expression at position `j`. -/
def enter (seen : List Reference.Noted) (j id : Nat) (single : Bool) : Except CompileError (List Reference.Noted) :=
  match seen.find? (fun x => x.id == id) with
  | none => .ok (seen ++ [⟨id, single, j⟩])
  | some old => if old.single = single then .ok seen else .error ⟨.other, disagreement j id single old, some j⟩

/-- Adding the expression at position `j`: what is noted afterwards. -/
def add (g : Grey) (seen : List Reference.Noted) (j : Nat) (text : Str) (flags : Flags) (id : Nat) :
    Except CompileError (List Reference.Noted) :=
  let single := flags.contains .SINGLEMATCH
  let stop (why : String) : Except CompileError (List Reference.Noted) := .error ⟨.other, why, some j⟩
  if utf8Len text > g.limitPatternLength then stop "Pattern length exceeds limit."
  else if flags.contains .QUIET && flags.contains .SOM_LEFTMOST then
    stop "QUIET is not supported in combination with SOM_LEFTMOST."
  else if flags.contains .SINGLEMATCH && flags.contains .SOM_LEFTMOST then
    stop "SINGLEMATCH is not supported in combination with SOM_LEFTMOST."
  else match read text with
    | .error e => .error { e with index := some j }
    | .ok () =>
      if empty false true [] (Reference.afterVerb text) && !flags.contains .ALLOWEMPTY then
        stop "Pattern matches empty buffer; use ALLOWEMPTY to enable support."
      else enter seen j id single

/-- Adding expressions from position `j` on. -/
def addAll (g : Grey) : List Reference.Noted → Nat → List (Str × Flags × Nat) → Except CompileError Unit
  | _, _, [] => .ok ()
  | seen, j, (text, flags, id) :: rest =>
    match add g seen j text flags id with
    | .ok seen => addAll g seen (j + 1) rest
    | .error e => .error e

/-- Compiling: the mode of the database. -/
def compile (texts : List Str) (flags : List Flags) (ids : List Nat) (mode : Mode) (g : Grey) :
    Except CompileError Mode :=
  if texts = [] then .error ⟨.other, "Invalid parameter: expressions is empty", none⟩
  else if texts.length > g.limitPatternCount then .error ⟨.other, "Number of patterns too large", none⟩
  else if flags.length ≠ texts.length ∨ ids.length ≠ texts.length then
    .error ⟨.other, "Invalid parameter: one flag set and one id per expression", none⟩
  else match addAll g [] 0 (texts.zip (flags.zip ids)) with
    | .ok () => .ok mode
    | .error e => .error e

end Rescan.Spec.Mended
