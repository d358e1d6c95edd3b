import Verif.Model.Config
/-! # What compiling returns, as one short program

An executable description of `compile_multi`, with the texts of all errors and panics. It uses only data
types and flag tests of the model. No tree, graph, trie or report table is built: expressions are read from
left to right with the positions of the open groups, and for literal expressions id, SINGLEMATCH and
position are noted. -/
namespace Rescan.Spec.Reference

/-- The control verb at the start of a text and what follows it. -/
def verb (text : Str) : Option (Str × Str) :=
  match text with
  | '(' :: '*' :: rest =>
    match rest.dropWhile (fun c => c != ')') with
    | [] => none
    | _ :: body =>
      let v := rest.takeWhile (fun c => c != ')')
      if v = [] then none else some (v, body)
  | _ => none

/-- Verbs that are obeyed. -/
def obeyed : List Str := ["UCP".toList, "UTF8".toList, "UTF".toList]

/-- Verbs that are known but not supported. -/
def unsupported (v : Str) : Bool :=
  ["NO_AUTO_POSSESS".toList, "NO_START_OPT".toList, "UTF16".toList, "UTF32".toList, "CR".toList,
    "LF".toList, "CRLF".toList, "ANYCRLF".toList, "ANY".toList, "BSR_ANYCRLF".toList,
    "BSR_UNICODE".toList].contains v
  || "LIMIT_MATCH=".toList.isPrefixOf v || "LIMIT_RECURSION=".toList.isPrefixOf v

/-- Reading a body from byte `k` on, the groups opened at the bytes `opens` (innermost first) being open.
The position reported for a group is minus its offset, as a 64-bit number; computing it panics in debug
builds (C32). -/
def walk (p : Profile) : Nat → List Nat → Str → Res Unit
  | _, opens, [] =>
    match opens with
    | [] => .ok ()
    | k :: _ => .err ⟨.parse,
        "Missing close parenthesis for group started at index " ++ toString ((2 ^ 64 - k) % 2 ^ 64) ++ ".", none⟩
  | k, opens, c :: rest =>
    if c = '(' then
      if p = .debug ∧ k ≠ 0 then .panic "attempt to subtract with overflow"
      else walk p (k + 1) (k :: opens) rest
    else if c = ')' then
      match opens with
      | [] => .err ⟨.locatedParse, "Unmatched parentheses", none⟩
      | _ :: opens => walk p (k + 1) opens rest
    else if c.toNat < 128 then walk p (k + 1) opens rest
    else .panic "assertion failed: c.is_ascii()"

/-- Reading a text. -/
def read (p : Profile) (text : Str) : Res Unit :=
  match verb text with
  | none => walk p 0 [] text
  | some (v, body) =>
    if v ∈ obeyed then walk p (v.length + 3) [] body
    else if unsupported v then
      .err ⟨.locatedParse, "Unsupported control verb " ++ String.ofList v ++ " at index 2", none⟩
    else .err ⟨.locatedParse, "Unknown control verb " ++ String.ofList v ++ " at index 2", none⟩

/-- What follows the control verb, if there is one. -/
def afterVerb (text : Str) : Str :=
  match verb text with
  | none => text
  | some (_, body) => body

/-- Does the text stand for a literal? -/
def isLiteral (text : Str) : Bool :=
  !(afterVerb text).contains '|' && (afterVerb text).any (fun c => c != '(' && c != ')')

/-- What is noted of a literal expression. -/
structure Noted where
  id : Nat
  single : Bool
  index : Nat

/-- The error about two expressions with the same id that disagree about SINGLEMATCH. -/
def disagreement (j id : Nat) (single : Bool) (old : Noted) : String :=
  "Expression (index " ++ toString j ++ ") with match ID " ++ toString id ++ " "
    ++ (if single then "specified " else "did not sepcify ")
    ++ " SINGLEMATCH whereas previous expression (index " ++ toString old.index
    ++ ") with the same match ID did" ++ (if old.single then " not." else ".")

/-- Adding the expression at position `j`: what is noted afterwards. -/
def add (p : Profile) (g : Grey) (seen : List Noted) (j : Nat) (text : Str) (flags : Flags) (id : Nat) :
    Res (List Noted) :=
  let single := flags.contains .SINGLEMATCH
  if utf8Len text > g.limitPatternLength then .err ⟨.other, "Pattern length exceeds limit.", some j⟩
  else if flags.contains .QUIET && flags.contains .SOM_LEFTMOST then
    .err ⟨.other, "QUIET is not supported in combination with SOM_LEFTMOST.", some j⟩
  else match read p text with
    | .err e => .err { e with index := some j }
    | .panic m => .panic m
    | .timeout => .timeout
    | .ok () =>
      if g.allowLiteral && g.shortcutLiterals && isLiteral text then
        match seen.find? (fun x => x.id == id) with
        | none => .ok (seen ++ [⟨id, single, j⟩])
        | some old =>
          if old.single = single then .ok seen
          else if p = .debug then .panic "assertion failed: self.index.is_none()"
          else .err ⟨.other, disagreement j id single old, some j⟩
      else .ok seen

/-- Adding expressions from position `j` on. -/
def addAll (p : Profile) (g : Grey) : List Noted → Nat → List (Str × Flags × Nat) → Res Unit
  | _, _, [] => .ok ()
  | seen, j, (text, flags, id) :: rest =>
    match add p g seen j text flags id with
    | .ok seen => addAll p g seen (j + 1) rest
    | .err e => .err e
    | .panic m => .panic m
    | .timeout => .timeout

/-- The mode a database says it was compiled for: the SOM horizon is lost. -/
def modeOf : Mode → Mode
  | .stream _ => .stream none
  | m => m

/-- Compiling: the mode of the database. -/
def compile (p : Profile) (texts : List Str) (flags : List Flags) (ids : List Nat) (mode : Mode) (g : Grey) :
    Res Mode :=
  if texts = [] then .err ⟨.other, "Invalid parameter: expressions is empty", none⟩
  else if texts.length > g.limitPatternCount then .err ⟨.other, "Number of patterns too large", none⟩
  else match addAll p g [] 0 (texts.zip (flags.zip ids)) with
    | .ok () => .ok (modeOf mode)
    | .err e => .err e
    | .panic m => .panic m
    | .timeout => .timeout

end Rescan.Spec.Reference
