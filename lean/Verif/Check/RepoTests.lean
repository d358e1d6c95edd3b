import Verif.Model.Compiler
import Verif.Model.DumpCharClass
/-!
# The project's own unit tests, run on the model

Every `#[test]` of `/repo/src` transcribed assertion by assertion and evaluated on the model while
this file is built (`#guard` fails the build when its condition is false).  These are tests, not
proofs: no property theorem depends on this file.  They are evidence for the one thing the proofs
cannot establish, that the model computes what the Rust code computes: the Rust tests state results
the authors observed on the real code.  Tests run in both profiles where the model has one.
-/
namespace Rescan.Check

/-- All values of `u8` in order: `0..=255`. -/
def bytes : List U8 := (List.range 256).map (BitVec.ofNat 8)

/-- `(0..=255).step_by(step)`. -/
def stepBy (step : Nat) : List U8 := bytes.filter (fun b => b.toNat % step == 0)

/-- Both profiles. -/
def profiles : List Profile := [.debug, .release]

/-- A byte literal `b'c'`. -/
def b (c : Char) : U8 := BitVec.ofNat 8 c.toNat

/-- A byte string literal. -/
def bs (s : String) : List U8 := s.toList.map b

/-- `assert!(r == Ok(v))` for calls that may panic. -/
def gives {ε α : Type} [BEq α] (r : Outcome ε α) (v : α) : Bool :=
  match r with
  | .ok a => a == v
  | _ => false

/-- The value of a call that must not panic. -/
def unwrap {ε α : Type} (d : α) (r : Outcome ε α) : α :=
  match r with
  | .ok a => a
  | _ => d

/-! ## src/util/bitfield.rs -/
section BitField
open BitField256

/-- The empty field, `BitField256::default()`. -/
def e : BitField256 := BitField256.default

/-- `a.set_all()` on the empty field. -/
def full : BitField256 := e.setAll

-- src/util/bitfield.rs:291-295 `empty`
#guard e.none && e.count == 0

-- src/util/bitfield.rs:298-317 `set_1`
#guard bytes.all fun i =>
  let a := e.resetAll
  let a1 := a.set i
  let a2 := a1.reset i
  a.none && !a1.none && a1.test i && a1.findFirst == some i && (a1.findNext i).isNone &&
    a1.count == 1 && a2.none && !a2.test i && a2.findFirst.isNone && a2.count == 0

/-- The `while let Some(i) = a.find_next(last)` loop: the values of `i`. -/
def nexts (a : BitField256) : Nat → U8 → List U8
  | 0, _ => []
  | n + 1, last =>
    match a.findNext last with
    | some i => i :: nexts a n i
    | Option.none => []

-- src/util/bitfield.rs:320-340 `set_n`
#guard [80, 17, 7, 3].all fun step =>
  let a := (stepBy step).foldl BitField256.set e
  a.count == (stepBy step).length && a.findFirst == some 0#8 &&
    (nexts a 300 0#8).zipIdx.all fun (i, k) => i.toNat == (k + 1) * step

-- src/util/bitfield.rs:343-354 `all_bits`
#guard !full.none && full.all && full.count == 256
#guard full.flipAll.none && !full.flipAll.all && full.flipAll.count == 0

-- src/util/bitfield.rs:357-369 `flip_n`
#guard bytes.all fun i =>
  let a := (bytes.take (i.toNat + 1)).foldl BitField256.flip full
  !a.test i && a.count == 255 - i.toNat

-- src/util/bitfield.rs:372-383 `flip_on`
#guard bytes.all fun i =>
  let a := (bytes.take (i.toNat + 1)).foldl BitField256.flip e
  a.test i && i.toNat + 1 == a.count
#guard (bytes.foldl BitField256.flip e).all

-- src/util/bitfield.rs:386-406 `trivial_operations`
#guard
  let a := e.not
  let b := e
  let c := a.andAssign b
  a.all && b.none && a == b.not && b == a.not && a == a.or b && b == a.and b && c == b &&
    c.orAssign a == a && a.xor b == a

/-- The `even` field of `even_odd`. -/
def even : BitField256 := (bytes.filter (fun i => i.toNat % 2 == 0)).foldl BitField256.set e
/-- The `odd` field of `even_odd`. -/
def odd : BitField256 := (bytes.filter (fun i => i.toNat % 2 != 0)).foldl BitField256.set e

-- src/util/bitfield.rs:409-436 `even_odd`
#guard bytes.all fun i =>
  if i.toNat % 2 == 0 then even.test i && !odd.test i else odd.test i && !even.test i
#guard even != odd && (even.or odd).all && (even.xor odd).all && (even.and odd).none

-- src/util/bitfield.rs:439-451 `find_first`
#guard bytes.all fun i => ((bytes.take i.toNat).foldl BitField256.reset full).findFirst == some i
#guard
  let a := bytes.foldl BitField256.reset full
  a.none && a.findFirst.isNone

-- src/util/bitfield.rs:454-466 `find_last`
#guard bytes.all fun i =>
  ((bytes.drop (i.toNat + 1)).reverse.foldl BitField256.reset full).findLast == some i
#guard
  let a := bytes.reverse.foldl BitField256.reset full
  a.none && a.findLast.isNone

-- src/util/bitfield.rs:469-480 `find_next_all`
#guard full.findFirst == some 0#8 && (bytes.drop 1).all (fun i => full.findNext (i - 1#8) == some i)
  && (full.findNext 255#8).isNone

-- src/util/bitfield.rs:483-491 `find_next_none`
#guard bytes.all fun i => (e.set i).findFirst == some i && ((e.set i).findNext i).isNone

-- src/util/bitfield.rs:494-503 `find_next_last`
#guard (bytes.take 255).all fun i =>
  let a := (e.set i).set 255#8
  a.findFirst == some i && a.findNext i == some 255#8

-- src/util/bitfield.rs:506-514 `find_nth_one`
#guard profiles.all fun p => bytes.all fun i =>
  gives ((e.set i).findNth p 0#8) (some i) && gives ((e.set i).findNth p 1#8) Option.none

-- src/util/bitfield.rs:517-524 `find_nth_all`
#guard profiles.all fun p => bytes.all fun i => gives (full.findNth p i) (some i)

-- src/util/bitfield.rs:527-545 `find_nth_sparse`
#guard profiles.all fun p =>
  let bits := stepBy (256 / 31)
  let a := bits.foldl BitField256.set e
  a.count == bits.length &&
    bits.zipIdx.all fun (pos, n) => gives (a.findNth p (BitVec.ofNat 8 n)) (some pos)

-- src/util/bitfield.rs:548-559 `set_range_one`
#guard profiles.all fun p => bytes.all fun i => gives (e.setRange p i i) (e.set i)

-- src/util/bitfield.rs:562-570 `set_range_all`
#guard profiles.all fun p => gives (e.setRange p 0#8 255#8) full

-- src/util/bitfield.rs:573-592 `set_range_part`
#guard profiles.all fun p => (List.range (256 - 256 / 3)).all fun i =>
  let part := 256 / 3
  let a := unwrap e (e.setRange p (BitVec.ofNat 8 i) (BitVec.ofNat 8 (i + part)))
  (List.range (part + 1)).all (fun j => a.test (BitVec.ofNat 8 (i + j))) && part + 1 == a.count

end BitField

/-! ## src/util/charreach.rs -/
section CharReach
open CharReach

/-- `CharReach::default()`. -/
def cr0 : CharReach := CharReach.default

/-- `CharReach::from_range` on a range that does not panic. -/
def range (p : Profile) (x y : U8) : CharReach := unwrap cr0 (CharReach.fromRange p x y)

-- src/util/charreach.rs:372-378 `init`
#guard cr0.count == 0 && cr0.none && !cr0.all

-- src/util/charreach.rs:381-388 `dot`
#guard profiles.all fun p =>
  let dot := unwrap cr0 (CharReach.dot p)
  dot.count == 256 && dot.all && bytes.all dot.test

-- src/util/charreach.rs:391-402 `set`
#guard (cr0.set (b 'q')).count == 1 && (cr0.set (b 'q')).setAll.count == 256 &&
  (cr0.set (b 'q')).setAll.all

-- src/util/charreach.rs:405-425 `reset`
#guard
  let cr := (bs "quark").foldl CharReach.set cr0
  let cr1 := cr.reset (b 'r')
  let cr2 := cr1.setAll
  cr.count == 5 && cr1.count == 4 && !cr1.test (b 'r') && cr2.count == 256 && cr2.all &&
    !(cr2.reset 0xff#8).all

-- src/util/charreach.rs:428-445 `flip`
#guard
  let c1 := cr0.flipAll
  let c2 := c1.flipAll
  let c3 := c2.flip 25#8
  c1.count == 256 && c1.all && c2.count == 0 && c2.none && !c3.none && !c3.all && c3.count == 1 &&
    c3.flipAll.count == 255

/-- The class of the tests `count` and `bytes`. -/
def seven : CharReach :=
  [1#8, 2#8, b 'a', b 'Z', b 'm', b '~', 210#8].foldl CharReach.set cr0

-- src/util/charreach.rs:448-467 `count`
#guard match seven.findFirst with
  | some n => seven.count == (nexts seven.bits 300 n).length + 1
  | Option.none => false

-- src/util/charreach.rs:470-488 `bytes`
#guard
  let cr := [1#8, 2#8, b '~', 210#8].foldl CharReach.flip seven
  !seven.isAlphabetic && cr.isAlphabetic && cr.display == "Zam".toList

-- src/util/charreach.rs:491-505 `alpha`
#guard
  let c1 := cr0.set (b 'a')
  let c2 := ((c1.set (b 'A')).set (b 'b')).set (b 'z')
  cr0.count == 0 && !cr0.isAlphabetic && c1.count != 0 && c1.isAlphabetic && c2.isAlphabetic &&
    !(c2.set 1#8).isAlphabetic

-- src/util/charreach.rs:508-534 `alpha_all`
#guard bytes.all fun i => (CharReach.fromChar i).isAlphabetic ==
  (decide (b 'A' ≤ i ∧ i ≤ b 'Z') || decide (b 'a' ≤ i ∧ i ≤ b 'z'))
#guard profiles.all fun p =>
  !(unwrap cr0 (CharReach.dot p)).isAlphabetic &&
  ["0123456789", "a0", "abcdef0"].all (fun s => !(CharReach.fromBytes (bs s)).isAlphabetic) &&
  [(b 'A', b 'z'), (b 'A', b 'Z' + 1#8), (b 'A' - 1#8, b 'Z'), (b 'a', b 'z' + 1#8),
    (b 'a' - 1#8, b 'z')].all (fun (x, y) => !(range p x y).isAlphabetic) &&
  [('A', 'B'), ('A', 'F'), ('A', 'Z'), ('X', 'Z'), ('a', 'b'), ('a', 'z')].all
    (fun (x, y) => (range p (b x) (b y)).isAlphabetic) &&
  (CharReach.fromBytes (bs "ABCDEFabcdef")).isAlphabetic

-- src/util/charreach.rs:537-548 `caseless`
#guard
  let c1 := cr0.set (b 'a')
  let c2 := c1.set (b 'A')
  let c3 := c2.set (b 'b')
  let c4 := c3.set (b 'B')
  gives (ε := CompileError) c1.isCaselessChar false &&
  gives (ε := CompileError) c2.isCaselessChar true &&
  gives (ε := CompileError) c3.isCaselessChar false &&
  gives (ε := CompileError) c4.isCaselessChar false

-- src/util/charreach.rs:551-566 `caseless_all`
#guard bytes.all fun i =>
  gives (ε := CompileError) (CharReach.fromChar i).isCaselessChar false &&
  bytes.all fun j =>
    let upperLower := decide (b 'A' ≤ i ∧ i ≤ b 'Z') && j == i ^^^ 0x20#8
    let lowerUpper := decide (b 'a' ≤ i ∧ i ≤ b 'z') && j == i ^^^ 0x20#8
    gives (ε := CompileError) ((cr0.set i).set j).isCaselessChar (upperLower || lowerUpper)

-- src/util/charreach.rs:569-591 `bitwise`
#guard
  let cr1 := cr0.set (b 'a')
  let cr2 := cr0.set (b 'z')
  let cr3 := (cr0.set (b 'a')).set (b 'z')
  let cr4 := (cr0.orAssign cr1).orAssign cr2
  cr1.cmp cr3 == .lt && cr3 == cr4 && cr1.or cr2 == cr3 && cr1.or cr2 == cr4 &&
    cr1.and cr3 == cr1 && cr2.and cr3 == cr2 && !(cr3.andAssign cr1).test (b 'z')

-- src/util/charreach.rs:594-619 `bit5`
#guard
  let c1 := cr0.set (b 'a')
  let c2 := c1.set (b 'A')
  let c3 := c2.set (b '!')
  let c4 := c3.set 1#8
  let d := (c4.resetAll.set (b '!')).set (b 'A')
  let f := (d.resetAll.set (b 'A')).set (b 'b')
  cr0.isBit5Insensitive && !c1.isBit5Insensitive && c2.isBit5Insensitive && !c3.isBit5Insensitive &&
    c4.isBit5Insensitive && !d.isBit5Insensitive && !f.isBit5Insensitive &&
    ((f.set (b 'a')).set (b 'B')).isBit5Insensitive

-- src/util/charreach.rs:622-633 `set_range`
#guard profiles.all fun p => bytes.all fun range => (bytes.take (256 - range.toNat)).all fun from_ =>
  let to := from_ + range
  let cr := unwrap cr0 (cr0.setRange p from_ to)
  cr.findFirst == some from_ && cr.findLast == some to && cr.count == range.toNat + 1

-- src/util/charreach.rs:636-639 `find_empty`
#guard cr0.findFirst == Option.none && cr0.findNext 255#8 == Option.none

-- src/util/charreach.rs:642-663 `find_last`
#guard [b 'a', b 'b', 192#8, 207#8, 223#8, 255#8].zipIdx.all fun (c, k) =>
  (([b 'a', b 'b', 192#8, 207#8, 223#8, 255#8].take (k + 1)).foldl CharReach.set cr0).findLast
    == some c
#guard cr0.setAll.resetAll.findLast == Option.none &&
  (cr0.setAll.resetAll.set 0#8).findLast == some 0#8 &&
  ((cr0.setAll.resetAll.set 0#8).set 1#8).findLast == some 1#8

-- src/util/charreach.rs:666-699 `find_nth`
#guard profiles.all fun p => bytes.all fun i =>
  gives ((CharReach.fromChar i).findNth p 0#8) (some i) &&
  gives ((CharReach.fromChar i).findNth p 1#8) Option.none &&
  gives ((unwrap cr0 (CharReach.dot p)).findNth p i) (some i)
#guard profiles.all fun p => (bytes.take 128).all fun i =>
  let cr := (cr0.set i).set (255#8 - i)
  gives (cr.findNth p 0#8) (some i) && gives (cr.findNth p 1#8) (some (255#8 - i)) &&
    gives (cr.findNth p 2#8) Option.none

/-- The `BYTES` of `find_nth`. -/
def nthBytes : List U8 :=
  [1#8, 2#8, 3#8, 5#8, 6#8, 0x20#8] ++ bs "!#$%&./0123568:;ABCDEFMNOPUYZbcdefwxyz"

#guard nthBytes.length == 44
#guard profiles.all fun p =>
  let cr := CharReach.fromBytes nthBytes
  nthBytes.zipIdx.all (fun (x, i) => gives (cr.findNth p (BitVec.ofNat 8 i)) (some x)) &&
    gives (cr.findNth p (BitVec.ofNat 8 nthBytes.length)) Option.none

end CharReach

/-! ## src/util/ue2string.rs -/

-- src/util/ue2string.rs:124-130 `string_eq`
#guard Ue2Literal.default.eq Ue2Literal.default

/-! ## src/parser/control_verbs.rs -/

-- src/parser/control_verbs.rs:60-70 `read_control_verbs_supported`
#guard match readControlVerbs "(*UCP)test".toList 0 ParseMode.default with
  | .ok (rest, mode) => mode.ucp && rest == "test".toList && !mode.utf8 &&
    (match readControlVerbs "(*UTF)test".toList 0 mode with
    | .ok (rest, mode) => mode.utf8 && rest == "test".toList
    | _ => false)
  | _ => false

/-- Does the verb reader fail with a reason that starts with `s`? -/
def failsWith (input s : String) : Bool :=
  match readControlVerbs input.toList 0 ParseMode.default with
  | .err err => s.toList.isPrefixOf err.reason.toList
  | _ => false

-- src/parser/control_verbs.rs:73-85 `read_control_verbs_unsupported`
#guard failsWith "(*ANY)test" "Unsupported" && failsWith "(*LIMIT_MATCH=3)test" "Unsupported"

-- src/parser/control_verbs.rs:88-96 `read_control_verbs_unknown`
#guard failsWith "(*XXX)test" "Unknown"

/-! ## src/parser.rs -/

/-- Parse in the default mode and dump the tree. -/
def dumped (p : Profile) (s : String) : Option String :=
  match parse p s.toList ParseMode.default with
  | .ok (c, _) =>
    match Dump.dumpTree p 1000 c with
    | .ok out => some (String.ofList out)
    | _ => Option.none
  | _ => Option.none

-- src/parser.rs:197-212 `parse_alternation`
#guard profiles.all fun p => dumped p "|" == some "SEQUENCE (capture index 0)
  ALTERNATION
    SEQUENCE (not captured)
       <empty>
    SEQUENCE (not captured)
       <empty>
"

-- src/parser.rs:215-227 `parse_any`
#guard profiles.all fun p => dumped p "a" == some "SEQUENCE (capture index 0)
  ASCII CLASS
    a
"

-- src/parser.rs:230-243 `parse_capturing_group`
#guard profiles.all fun p => dumped p "()" == some "SEQUENCE (capture index 0)
  SEQUENCE (capture index 1)
     <empty>
"

/-! ## src/lib.rs -/

-- src/lib.rs:154-156 `compile_single`
#guard profiles.all fun p => (compile p "foobar".toList Flags.empty .block).isOk

-- src/lib.rs:159-161 `compile_multi_int_empty_input`
#guard profiles.all fun p => (compileMultiInt p [] [] [] .block Grey.default).isErr

end Rescan.Check
