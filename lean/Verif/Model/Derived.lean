import Verif.Model.Graph
import Verif.Model.Literal
import Verif.Model.DumpCharClass
/-! # Derived `Debug` and `Hash`

What `#[derive(Debug)]` and `#[derive(Hash)]` generate for the types of the project, and the `Debug` of the two
bitflags types.  `{:?}` and `{:#?}` are covered (with no width, fill or `x` flags).

The text of a `str` depends on two Unicode tables of std, and on the version of std in one more point; they are
parameters (`Tables`). -/
namespace Rescan.Derived

/-- What std's `char::escape_debug_ext` looks up: `Grapheme_Extend`, `is_printable`, and whether the character NUL
is written `\0` (newer releases) or `\u{0}`. -/
structure Tables where
  graphemeExtended : Char → Bool
  printable : Char → Bool
  shortNul : Bool

/-- src/util/compile_error.rs:4: an integer in lower-case digits of base `b + 2`, without leading zeros: std's `Display` for
integers (base 10) and `char::escape_unicode` (base 16). -/
def digits (b n : Nat) : Str :=
  if n < b + 2 then [Dump.hexDigit n] else digits b (n / (b + 2)) ++ [Dump.hexDigit (n % (b + 2))]
termination_by n
decreasing_by exact Nat.div_lt_self (by omega) (by omega)

/-- src/util/compile_error.rs:4: decimal digits, std's `Debug` for `u32`, `u64`. -/
def decimal (n : Nat) : Str := digits 8 n

/-- src/util/compile_error.rs:4, 9: std's `char::escape_unicode`. -/
def escapeUnicode (c : Char) : Str := ['\\', 'u', '{'] ++ digits 14 c.toNat ++ ['}']

/-- src/util/compile_error.rs:4, 9: std's `char::escape_debug_ext`, as called for the characters of a `str`. -/
def escapeChar (t : Tables) (c : Char) : Str :=
  if c = '\x00' then (if t.shortNul then ['\\', '0'] else escapeUnicode c)
  else if c = '\t' then ['\\', 't']
  else if c = '\r' then ['\\', 'r']
  else if c = '\n' then ['\\', 'n']
  else if c = '\\' then ['\\', '\\']
  else if c = '"' then ['\\', '"']
  else if t.graphemeExtended c then escapeUnicode c
  else if t.printable c then [c]
  else escapeUnicode c

/-- The calls a derived `fmt` makes on its formatter. -/
inductive Val where
  /-- `f.write_str(..)`: a unit variant, a `bool`, an integer. -/
  | word (s : Str)
  /-- `<str as Debug>::fmt`. -/
  | str (s : Str)
  /-- `f.debug_struct(name).field(..)...finish()`. -/
  | struct (name : Str) (fields : List (Str × Val))
  /-- `f.debug_tuple(name).field(..)...finish()`. -/
  | tuple (name : Str) (fields : List Val)
  /-- `f.debug_list().entries(..).finish()`. -/
  | list (entries : List Val)

/-- src/util/compile_error.rs:4 (`{:#?}`): std's `PadAdapter`: four spaces before each line; the flag says that a line starts here. -/
def pad : Bool → Str → Str
  | _, [] => []
  | nl, c :: cs => (if nl then "    ".toList else []) ++ c :: pad (c == '\n') cs

mutual
/-- src/util/compile_error.rs:4 etc.: the text; `alt` is `{:#?}`.  std's `DebugStruct`, `DebugTuple`, `DebugList`. -/
def text (t : Tables) (alt : Bool) : Val → Str
  | .word s => s
  | .str s => ['"'] ++ s.flatMap (escapeChar t) ++ ['"']
  | .struct name fs =>
    name ++ (match fs with
      | [] => []
      | _ :: _ =>
        (if alt then " {\n".toList else " { ".toList) ++ textFields t alt fs
          ++ (if alt then ['}'] else " }".toList))
  | .tuple name vs =>
    name ++ (match vs with
      | [] => []
      | _ :: _ => (if alt then "(\n".toList else ['(']) ++ textVals t alt vs ++ [')'])
  | .list vs => ['['] ++ (match vs with
      | [] => []
      | _ :: _ => (if alt then ['\n'] else []) ++ textVals t alt vs) ++ [']']
/-- The fields of a struct: `name: value` each; in `{:?}` with `, ` between them, in `{:#?}` each on lines of its own. -/
def textFields (t : Tables) (alt : Bool) : List (Str × Val) → Str
  | [] => []
  | (n, v) :: fs =>
    if alt then pad true (n ++ ": ".toList ++ text t alt v ++ ",\n".toList) ++ textFields t alt fs
    else n ++ ": ".toList ++ text t alt v
      ++ (match fs with | [] => [] | _ :: _ => ", ".toList ++ textFields t alt fs)
/-- The fields of a tuple or the entries of a list. -/
def textVals (t : Tables) (alt : Bool) : List Val → Str
  | [] => []
  | v :: vs =>
    if alt then pad true (text t alt v ++ ",\n".toList) ++ textVals t alt vs
    else text t alt v ++ (match vs with | [] => [] | _ :: _ => ", ".toList ++ textVals t alt vs)
end

/-! ## The types with a derived `Debug` -/

/-- `bool`. -/
def ofBool (b : Bool) : Val := .word (if b then "true".toList else "false".toList)
/-- An integer. -/
def ofNat (n : Nat) : Val := .word (decimal n)
/-- `Option<T>`. -/
def ofOption {α : Type} (f : α → Val) : Option α → Val
  | none => .word "None".toList
  | some a => .tuple "Some".toList [f a]

/-- src/util/compile_error.rs:16-26 `ErrorKind`. -/
def ofErrorKind : ErrorKind → Val
  | .parse => .word "Parse".toList
  | .locatedParse => .word "LocatedParse".toList
  | .resourceLimit => .word "ResourceLimit".toList
  | .other => .word "Other".toList

/-- src/util/compile_error.rs:4-13 `CompileError`. -/
def ofCompileError (e : CompileError) : Val :=
  .struct "CompileError".toList
    [("kind".toList, ofErrorKind e.kind), ("reason".toList, .str e.reason.toList),
     ("index".toList, ofOption ofNat e.index)]

/-- src/util/bitfield.rs:8-11 `BitField256`. -/
def ofBitField (b : BitField256) : Val :=
  .struct "BitField256".toList [("bits".toList, .list (b.bits.toList.map (fun w => ofNat w.toNat)))]

/-- src/util/charreach.rs:11-15 `CharReach`. -/
def ofCharReach (cr : CharReach) : Val :=
  .struct "CharReach".toList [("bits".toList, ofBitField cr.bits)]

/-- src/util/depth.rs:13-16 `Depth`. -/
def ofDepth (d : Depth) : Val := .struct "Depth".toList [("val".toList, ofNat d.val)]

/-- src/util/dump_charclass.rs:6-12 `CcOutput`. -/
def ofCcOutput : CcOutput → Val
  | .text => .word "Text".toList
  | .dot => .word "Dot".toList

/-- src/parser/parser_util.rs:4-12 `ParseMode`. -/
def ofParseMode (m : ParseMode) : Val :=
  .struct "ParseMode".toList
    [("caseless".toList, ofBool m.caseless), ("dotall".toList, ofBool m.dotall),
     ("ignore_space".toList, ofBool m.ignoreSpace), ("multiline".toList, ofBool m.multiline),
     ("ucp".toList, ofBool m.ucp), ("utf8".toList, ofBool m.utf8)]

/-- src/parser/ascii_component_class.rs:5-9 `AsciiComponentClass`. -/
def ofAsciiClass (c : AsciiComponentClass) : Val :=
  .struct "AsciiComponentClass".toList [("mode".toList, ofParseMode c.mode), ("cr".toList, ofCharReach c.cr)]

/-- src/parser/component_class.rs:24-27 `ComponentClass`. -/
def ofClass : ComponentClass → Val
  | .ascii c => .tuple "Ascii".toList [ofAsciiClass c]

mutual
/-- src/parser/component.rs:8-13 `Component`. -/
def ofComponent : Component → Val
  | .alternation a => .tuple "Alternation".toList [ofAlternation a]
  | .cls c => .tuple "Class".toList [ofClass c]
  | .sequence s => .tuple "Sequence".toList [ofSequence s]
/-- src/parser/component_alternation.rs:4-7 `ComponentAlternation`. -/
def ofAlternation : ComponentAlternation → Val
  | .mk cs => .struct "ComponentAlternation".toList [("children".toList, .list (ofSequences cs))]
/-- src/parser/component_sequence.rs:6-14 `ComponentSequence`. -/
def ofSequence : ComponentSequence → Val
  | .mk cs alt idx nm =>
    .struct "ComponentSequence".toList
      [("children".toList, .list (ofComponents cs)), ("alternation".toList, ofAltOption alt),
       ("capture_index".toList, ofOption ofNat idx),
       ("capture_name".toList, ofOption (fun s => .str s.toList) nm)]
/-- src/parser/component_sequence.rs:9: the alternation of a sequence. -/
def ofAltOption : Option ComponentAlternation → Val
  | none => .word "None".toList
  | some a => .tuple "Some".toList [ofAlternation a]
/-- src/parser/component_sequence.rs:8: the children of a sequence. -/
def ofComponents : List Component → List Val
  | [] => []
  | c :: cs => ofComponent c :: ofComponents cs
/-- src/parser/component_alternation.rs:6: the children of an alternation. -/
def ofSequences : List ComponentSequence → List Val
  | [] => []
  | s :: ss => ofSequence s :: ofSequences ss
end

/-! ## bitflags -/

/-- src/lib.rs:134-148, src/parser/position.rs:5-12: the parts written by the `Debug` of bitflags 1.x: the name of each
declared flag that is contained (no declared flag here is zero), then what is left over. -/
def flagParts (alt : Bool) (declared : List (String × Nat)) (bits : Nat) : List Str :=
  let names := (declared.filter (fun d => bits &&& d.2 == d.2)).map (fun d => d.1.toList)
  let known := declared.foldl (fun a d => a ||| d.2) 0
  let extra := bits - (bits &&& known)
  names ++ (if extra = 0 then [] else [(if alt then "0x0x".toList else "0x".toList) ++ digits 14 extra])

/-- src/lib.rs:134-148, src/parser/position.rs:5-12: the parts with ` | ` between them, `(empty)` if there is none. -/
def flagText (alt : Bool) (declared : List (String × Nat)) (bits : Nat) : Str :=
  match flagParts alt declared bits with
  | [] => "(empty)".toList
  | w :: ws => ws.foldl (fun acc x => acc ++ " | ".toList ++ x) w

/-- src/lib.rs:136-146: the declared flags. -/
def declaredFlags : List (String × Nat) :=
  [("CASELESS", Flags.CASELESS.bits.toNat), ("DOTALL", Flags.DOTALL.bits.toNat),
   ("MULTILINE", Flags.MULTILINE.bits.toNat), ("SINGLEMATCH", Flags.SINGLEMATCH.bits.toNat),
   ("ALLOWEMPTY", Flags.ALLOWEMPTY.bits.toNat), ("UTF8", Flags.UTF8.bits.toNat),
   ("UCP", Flags.UCP.bits.toNat), ("PREFILTER", Flags.PREFILTER.bits.toNat),
   ("SOM_LEFTMOST", Flags.SOM_LEFTMOST.bits.toNat), ("COMBINATION", Flags.COMBINATION.bits.toNat),
   ("QUIET", Flags.QUIET.bits.toNat)]

/-- src/parser/position.rs:8-10: the declared position flags. -/
def declaredPosFlags : List (String × Nat) :=
  [("NOFLOAT", PosFlags.NOFLOAT.bits.toNat), ("MUST_FLOAT", PosFlags.MUST_FLOAT.bits.toNat),
   ("MULTILINE_START", PosFlags.MULTILINE_START.bits.toNat)]

/-- src/lib.rs:134-148 `Debug` of `Flags`. -/
def flagsText (alt : Bool) (f : Flags) : Str := flagText alt declaredFlags f.bits.toNat
/-- src/parser/position.rs:5-12 `Debug` of `PosFlags`. -/
def posFlagsText (alt : Bool) (f : PosFlags) : Str := flagText alt declaredPosFlags f.bits.toNat

/-! ## `Hash` -/

/-- A call on a `Hasher`. -/
inductive HashCall where
  | u32 (n : Nat)
  | u64 (n : Nat)
  | usize (n : Nat)
  | bytes (bs : List U8)
deriving DecidableEq

/-- src/util/bitfield.rs:10: the bytes of a word in memory order, lowest first if `little`. -/
def wordBytes (little : Bool) (w : U64) : List U8 :=
  let le := (List.range 8).map (fun i => (w >>> (8 * i)).truncate 8)
  if little then le else le.reverse

/-- src/util/report.rs:1-5 `Report`: `min_length.hash(state)`. -/
def hashReport (r : Report) : List HashCall := [.u64 r.minLength]
/-- src/parser/position_info.rs:3-7 `PositionInfo`: `NodeIndex<u32>`, then the bits of `PosFlags`. -/
def hashPositionInfo (p : PositionInfo) : List HashCall := [.u32 p.pos, .u32 p.flags.bits.toNat]
/-- src/util/bitfield.rs:8-11 `BitField256`: an array is hashed as a slice: its length, then all its bytes in one call. -/
def hashBitField (little : Bool) (b : BitField256) : List HashCall :=
  [.usize 4, .bytes (b.bits.toList.flatMap (wordBytes little))]
/-- src/util/charreach.rs:11-15 `CharReach`. -/
def hashCharReach (little : Bool) (cr : CharReach) : List HashCall := hashBitField little cr.bits

end Rescan.Derived
