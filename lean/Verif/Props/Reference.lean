import Verif.Props.Compiler
import Verif.Props.StoredCompiler
import Verif.Props.Hashed
import Verif.Props.Borrows
import Verif.Props.TreeBorrows
import Verif.Proofs.Reference
/-! # C105: a reference program for compiling -/
namespace Rescan
open Spec

/-- The database whose mode is `m`. -/
def ofMode (m : Mode) : Database := ⟨⟨.fullRose, m⟩⟩

/-- C105: compiling returns, for all lists and both profiles, exactly what the reference program says. -/
theorem C105_reference (p : Profile) (es : List Str) (fs : List Flags) (ids : List Nat) (mode : Mode) (g : Grey)
    (hs : Sane g) :
    compileMultiInt p es fs ids mode g = (Spec.Reference.compile p es fs ids mode g).bind (fun m => .ok (ofMode m)) := by
  rw [compileMultiInt_eq]
  unfold Spec.Reference.compile compileNg
  by_cases hne : es = []
  · subst hne; rfl
  · rw [if_neg hne, if_neg (by simpa using hne)]
    by_cases hn : es.length > g.limitPatternCount
    · rw [if_pos hn, if_pos hn]; rfl
    · rw [if_neg hn, if_neg hn]
      dsimp only
      rw [izip_eq]
      have hlen : 0 + (es.zip (fs.zip ids)).length ≤ 2 ^ 32 := by
        have := hs.count; rw [List.length_zip]; omega
      rcases Reference.addAll_walk p (cc := ⟨mode.isStreaming, mode.isVectored, g⟩) (np := es.length) hs
        (es.zip (fs.zip ids)) 0 [] _ [] hlen (Nat.zero_le _) (ngOk_new _ _ mode.somPrecision) (fun _ => rfl) with
        ⟨h1, ng, h, h2, h3⟩ | ⟨h1, h2⟩
      · rw [h1, h2]
        show Outcome.ok (build ng) = .ok _
        rw [build_ngOk h3]
        cases mode <;> rfl
      · dsimp only at h2
        rw [← h2]
        cases hr : addAll p 0 (Ng.new ⟨mode.isStreaming, mode.isVectored, g⟩ es.length mode.somPrecision)
          (es.zip (fs.zip ids)) with
        | ok x => rw [hr] at h1; cases h1
        | err x => rfl
        | panic m => rfl
        | timeout => rfl

example := C105_reference .release ["a(b".toList, "c|d".toList] [.empty, .CASELESS] [0, 0] .block Grey.default sane_default

/-- C105 for the two public functions. -/
theorem C105_public (p : Profile) (mode : Mode) :
    (∀ es fs ids, compileMulti p es fs ids mode
      = (Spec.Reference.compile p es fs ids mode Grey.default).bind (fun m => .ok (ofMode m))) ∧
    (∀ e f, compile p e f mode
      = (Spec.Reference.compile p [e] [f] [0] mode Grey.default).bind (fun m => .ok (ofMode m))) :=
  ⟨fun es fs ids => C105_reference p es fs ids mode _ sane_default,
    fun e f => C105_reference p [e] [f] [0] mode _ sane_default⟩

/-- C105: parsing a text of less than 2 GiB succeeds, fails or panics exactly as reading it does, whatever
the mode. -/
theorem C105_read (p : Profile) (text : Str) (mode : ParseMode) (h : utf8Len text < 2 ^ 31) :
    (parse p text mode).bind (fun _ => .ok ()) = Spec.Reference.read p text :=
  Reference.parse_read p text mode h

example := C105_read .debug "(*UCP)a(b|c)".toList ParseMode.default (by decide +kernel)

/-- C105 for the compiler as it runs: on patterns given as UTF-8 bytes, with literals, tries and graphs as they
are stored; with hash tables of any layout; and, without undefined behaviour, under both sets of aliasing rules. -/
theorem C105_as_run (p : Profile) (fs : List Flags) (ids : List Nat) (mode : Mode) (g : Grey) (hs : Sane g) :
    (∀ bs : List (List U8), (∀ b ∈ bs, Utf8 b ∧ b.length < 2 ^ 63) →
      Stored.compileMultiInt p bs fs ids mode g
        = (Spec.Reference.compile p (bs.map Bytes.decode) fs ids mode g).bind (fun m => .ok (ofMode m))) ∧
    (∀ (H : Hashed.Hashing), H.Lawful → ∀ es, Hashed.compileMultiInt H p es fs ids mode g
        = (Spec.Reference.compile p es fs ids mode g).bind (fun m => .ok (ofMode m))) ∧
    (∀ es, ∃ m, Borrows.compileMultiInt p es fs ids mode g Borrows.Mem.start
        = some ((Spec.Reference.compile p es fs ids mode g).bind (fun m => .ok (ofMode m)), m)) ∧
    (∀ (w : Nat → Bool) es, ∃ m, TreeBorrows.compileMultiInt w p es fs ids mode g TreeBorrows.Mem.start
        = some ((Spec.Reference.compile p es fs ids mode g).bind (fun m => .ok (ofMode m)), m)) := by
  refine ⟨fun bs h => ?_, fun H h es => ?_, fun es => ?_, fun w es => ?_⟩
  · rw [Stored.C93_str p bs fs ids mode g h, C105_reference p _ fs ids mode g hs]
  · rw [Hashed.C94_compile h, C105_reference p _ fs ids mode g hs]
  · rw [← C105_reference p _ fs ids mode g hs]; exact Borrows.C96_compile p es fs ids mode g
  · rw [← C105_reference p _ fs ids mode g hs]; exact TreeBorrows.C99_compile w p es fs ids mode g

/-- The outcomes as a pair that can be compared: 0 with the mode, 1 with the error, 2 with the panic. -/
private def shown {α : Type} (r : Res α) : Nat × String × Option Nat :=
  match r with
  | .ok _ => (0, "", none)
  | .err e => (1, e.reason, e.index)
  | .panic m => (2, m, none)
  | .timeout => (3, "", none)

/-- The cases of the reference program all occur. -/
example :
    shown (Spec.Reference.compile .release [] [] [] .block Grey.default)
      = (1, "Invalid parameter: expressions is empty", none) ∧
    shown (Spec.Reference.compile .release ["a(b".toList, "c|d".toList] [.empty, .empty] [0, 0] .block Grey.default)
      = (1, "Missing close parenthesis for group started at index 18446744073709551615.", some 0) ∧
    shown (Spec.Reference.compile .debug ["a(b)".toList] [.empty] [0] .block Grey.default)
      = (2, "attempt to subtract with overflow", none) ∧
    shown (Spec.Reference.compile .debug ["ab".toList, "é".toList] [.empty, .empty] [0, 0] .block Grey.default)
      = (2, "assertion failed: c.is_ascii()", none) ∧
    shown (Spec.Reference.compile .release ["(*ANY)ab".toList] [.empty] [0] .block Grey.default)
      = (1, "Unsupported control verb ANY at index 2", some 0) ∧
    shown (Spec.Reference.compile .release ["a".toList, "(*UCP)x)".toList] [.empty, .empty] [0, 0] .block Grey.default)
      = (1, "Unmatched parentheses", some 1) ∧
    shown (Spec.Reference.compile .release ["a".toList, "b|c".toList, "d".toList] [.SINGLEMATCH, .empty, .empty]
        [7, 7, 7] .block Grey.default)
      = (1, "Expression (index 2) with match ID 7 did not sepcify  SINGLEMATCH whereas previous expression (index 0) with the same match ID did not.", some 2) ∧
    shown (Spec.Reference.compile .debug ["a".toList, "d".toList] [.SINGLEMATCH, .empty] [7, 7] .block Grey.default)
      = (2, "assertion failed: self.index.is_none()", none) ∧
    shown (Spec.Reference.compile .release ["a".toList, "(b)|c".toList] [.empty, .CASELESS] [1, 2] (.stream none) Grey.default)
      = (0, "", none) := by decide +kernel

/-- The conditions of `C105_as_run` are met by the default settings, by bytes that are not ASCII and by hash tables
like those of std. -/
example : Sane Grey.default ∧ (∀ b ∈ [Spec.encode "a|é".toList], Utf8 b ∧ b.length < 2 ^ 63) ∧
    Hashed.someHashing.Lawful ∧
    shown (Stored.compileMultiInt .release [Spec.encode "a|é".toList] [.empty] [0] .block Grey.default)
      = (2, "assertion failed: c.is_ascii()", none) :=
  ⟨sane_default, by
    intro b hb
    rw [List.mem_singleton] at hb
    subst hb
    exact ⟨(C89_utf8.1 _).2 ⟨_, rfl⟩, by decide +kernel⟩,
    ⟨Hashed.stdHash_lawful _, Hashed.stdHash_lawful _, Hashed.stdHash_lawful _, Hashed.stdHash_lawful _,
      Hashed.stdHash_lawful _, Hashed.stdHash_lawful _⟩, by decide +kernel⟩

end Rescan
