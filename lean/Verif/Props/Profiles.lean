import Verif.Proofs.Agree
import Verif.Props.ByteClass
import Verif.Props.Parser
import Verif.Spec.Witness
/-! # C78: debug and release builds agree unless the debug build panics -/
namespace Rescan

open Spec

theorem of_agrees {ε α : Type} {d r : Outcome ε α} (h : ProfilesAgree d r) (hp : d.isPanic = false) : r = d := by
  rcases h with h | h
  · rw [h] at hp; cases hp
  · exact h.symm

/-- C78: if parsing does not panic in a debug build, a release build gives the same tree and mode, or
the same error. -/
theorem C78_parse (ptr : Str) (mode : ParseMode) (h : (parse .debug ptr mode).isPanic = false) :
    parse .release ptr mode = parse .debug ptr mode := of_agrees (agrees_parse ptr mode) h

example := C78_parse "(a|b)".toList ParseMode.default (by decide +kernel)

/-- C78: likewise for compiling: same database or same error, for any settings. -/
theorem C78_compile (es : List Str) (fs : List Flags) (ids : List Nat) (mode : Mode) (g : Grey)
    (h : (compileMultiInt .debug es fs ids mode g).isPanic = false) :
    compileMultiInt .release es fs ids mode g = compileMultiInt .debug es fs ids mode g :=
  of_agrees (agrees_compileMultiInt es fs ids mode g) h

example := C78_compile ["ab".toList, "c|d".toList] [.CASELESS, .SINGLEMATCH] [1, 2] .block Grey.default (by decide +kernel)

/-- C78: likewise for the state handed to the back end, and for the graph of an expression. -/
theorem C78_compiled_state (es : List Str) (fs : List Flags) (ids : List Nat) (mode : Mode) (g : Grey)
    (h : (compileNg .debug es fs ids mode g).isPanic = false) :
    compileNg .release es fs ids mode g = compileNg .debug es fs ids mode g :=
  of_agrees (agrees_compileNg es fs ids mode g) h

example := C78_compiled_state ["ab".toList, "c|)".toList] [.CASELESS, .empty] [1, 2] (.stream none) Grey.default
  (by decide +kernel)

/-- C78: likewise for the graph of a parsed expression. -/
theorem C78_graph {ε : Type} (pe : ParsedExpression)
    (h : (buildGraph (ε := ε) .debug pe).isPanic = false) :
    buildGraph (ε := ε) .release pe = buildGraph .debug pe := of_agrees (agrees_buildGraph pe) h

example : ∃ pe, ParsedExpression.new .debug 0 "(a|b)c".toList .empty 7 = .ok pe ∧
    (buildGraph (ε := Empty) .debug pe).isPanic = false := Outcome.exists_ok (by decide +kernel)

/-- C78: likewise for the dumps: of a class, a range and a tree. -/
theorem C78_dump (fuel : Nat) (cr : CharReach) (maxLen : Nat) (out : CcOutput) (c1 c2 : U8)
    (c : Component) :
    ((Dump.describeClass .debug fuel cr maxLen out).isPanic = false →
      Dump.describeClass .release fuel cr maxLen out = Dump.describeClass .debug fuel cr maxLen out) ∧
    ((Dump.describeRange .debug fuel c1 c2 out).isPanic = false →
      Dump.describeRange .release fuel c1 c2 out = Dump.describeRange .debug fuel c1 c2 out) ∧
    ((Dump.dumpTree .debug fuel c).isPanic = false →
      Dump.dumpTree .release fuel c = Dump.dumpTree .debug fuel c) :=
  ⟨of_agrees (agrees_describeClass _ _ _ _), of_agrees (agrees_describeRange _ _ _ _),
   of_agrees (agrees_dumpTree _ _)⟩

example : (Dump.describeClass .debug 4 (CharReach.fromBytes [0x61#8, 0x63#8]) 256 .text).isPanic = false ∧
    (Dump.describeRange .debug 4 0x61#8 0x7a#8 .dot).isPanic = false ∧
    (match parse .debug "(a|b)c".toList ParseMode.default with
      | .ok (c, _) => (Dump.dumpTree .debug 4 c).isPanic
      | _ => true) = false := by decide +kernel

/-- C78: likewise for rounding and for exporting a class. -/
theorem C78_arith {w : Nat} (a : BitVec w) (n : U8) (cr : CharReach) (bits : List U8) :
    ((roundUpN .debug a n).isPanic = false → roundUpN .release a n = roundUpN .debug a n) ∧
    ((roundDownN .debug a n).isPanic = false → roundDownN .release a n = roundDownN .debug a n) ∧
    ((roundUp16 .debug a).isPanic = false → roundUp16 .release a = roundUp16 .debug a) ∧
    ((roundUpCacheLine .debug a).isPanic = false →
      roundUpCacheLine .release a = roundUpCacheLine .debug a) ∧
    ((cr.fillBitvector .debug bits).isPanic = false →
      cr.fillBitvector .release bits = cr.fillBitvector .debug bits) :=
  ⟨of_agrees (agrees_roundUpN _ _), of_agrees (agrees_roundDownN _ _), of_agrees (agrees_roundUp16 _),
   of_agrees (agrees_roundUpCacheLine _), of_agrees (agrees_fillBitvector _ _)⟩

example : (roundUpN .debug 200#64 16#8).isPanic = false ∧ (roundDownN .debug 200#64 16#8).isPanic = false ∧
    (roundUp16 .debug 200#64).isPanic = false ∧ (roundUpCacheLine .debug 200#64).isPanic = false ∧
    ((CharReach.fromBytes [0x41#8]).fillBitvector .debug (List.replicate 32 0#8)).isPanic = false := by decide +kernel

/-- C78: the byte-set operations that contain debug-only checks never differ at all. -/
theorem C78_byte_sets (b : BitField256) (x y n : U8) :
    b.setRange .release x y = b.setRange .debug x y ∧ b.findNth .release n = b.findNth .debug n := by
  refine ⟨?_, by rw [BitField256.C08_find_nth, BitField256.C08_find_nth]⟩
  by_cases h : x ≤ y
  · obtain ⟨b', h1, _⟩ := BitField256.C04_set_range .debug b x y h
    exact of_agrees (agrees_setRange b x y) (by rw [h1]; rfl)
  · have key : ∀ p, b.setRange p x y = .panic "`from` is greater than `to`" := by
      intro p
      unfold BitField256.setRange
      simp only [rassert, decide_eq_false h, Bool.false_eq_true, if_false, Bind.bind, Outcome.bind]
    rw [key, key]

example : (parse .debug ['(', 'a', '|', 'b', ')'] ParseMode.default).isOk = true ∧
    (parse .debug ['a', ')'] ParseMode.default).isErr = true := by decide +kernel

example : (compileMultiInt .debug [['a', 'b'], ['c', '|', 'd']] [.CASELESS, .SINGLEMATCH] [1, 2] .block
    Grey.default).isOk = true := by decide +kernel

/-- The proviso is needed: a release build accepts `a()`, on which a debug build panics. -/
example : (parse .debug ['a', '(', ')'] ParseMode.default).isPanic = true ∧
    (parse .release ['a', '(', ')'] ParseMode.default).isOk = true := by decide +kernel

end Rescan
