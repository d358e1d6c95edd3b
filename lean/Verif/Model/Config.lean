import Verif.Model.Report
/-! # Flags and modes: src/lib.rs, src/som.rs, src/util/compile_context.rs, src/parser/parser_util.rs -/
namespace Rescan

/-- src/lib.rs:134-148 `Flags` (bitflags 1.x): the raw bits.  Safe Rust can only build values
within `all()`; the model allows any 16 bits, so its theorems cover more values than can occur. -/
structure Flags where
  bits : U16
deriving DecidableEq

namespace Flags

/-- src/lib.rs:136 -/ def CASELESS : Flags := ⟨0x0001#16⟩
/-- src/lib.rs:137 -/ def DOTALL : Flags := ⟨0x0002#16⟩
/-- src/lib.rs:138 -/ def MULTILINE : Flags := ⟨0x0004#16⟩
/-- src/lib.rs:139 -/ def SINGLEMATCH : Flags := ⟨0x0008#16⟩
/-- src/lib.rs:140 -/ def ALLOWEMPTY : Flags := ⟨0x0010#16⟩
/-- src/lib.rs:141 -/ def UTF8 : Flags := ⟨0x0020#16⟩
/-- src/lib.rs:142 -/ def UCP : Flags := ⟨0x0040#16⟩
/-- src/lib.rs:143 -/ def PREFILTER : Flags := ⟨0x0080#16⟩
/-- src/lib.rs:144 -/ def SOM_LEFTMOST : Flags := ⟨0x0100#16⟩
/-- src/lib.rs:145 -/ def COMBINATION : Flags := ⟨0x0200#16⟩
/-- src/lib.rs:146 -/ def QUIET : Flags := ⟨0x0400#16⟩

/-- src/lib.rs:134-148: bitflags `empty()`. -/
def empty : Flags := ⟨0#16⟩
/-- src/lib.rs:134-148: bitflags `all()`: the union of the declared flags. -/
def all : Flags := ⟨0x07ff#16⟩
/-- src/lib.rs:134-148: bitflags `contains`. -/
def contains (self other : Flags) : Bool := (self.bits &&& other.bits) == other.bits
/-- src/lib.rs:134-148: bitflags `|`. -/
def or (a b : Flags) : Flags := ⟨a.bits ||| b.bits⟩
/-- src/lib.rs:134-148: bitflags `&`. -/
def and (a b : Flags) : Flags := ⟨a.bits &&& b.bits⟩
/-- src/lib.rs:134-148: bitflags `!`: complement truncated to the declared flags. -/
def not (a : Flags) : Flags := ⟨(~~~ a.bits) &&& all.bits⟩

end Flags

/-- src/lib.rs:67-71 `SomHorizon`. -/
inductive SomHorizon where
  | large
  | medium
  | small
deriving DecidableEq

/-- src/lib.rs:35-42 `Mode`. -/
inductive Mode where
  | block
  | stream (h : Option SomHorizon)
  | vectored
deriving DecidableEq

namespace Mode

/-- src/lib.rs:45-47 `is_streaming`. -/
def isStreaming : Mode → Bool
  | .stream _ => true
  | .vectored => true
  | _ => false
/-- src/lib.rs:49-51 `is_vectored`. -/
def isVectored : Mode → Bool
  | .vectored => true
  | _ => false
/-- src/lib.rs:54-64 `som_precision`. -/
def somPrecision : Mode → Nat
  | .stream (some .large) => 8
  | .stream (some .medium) => 4
  | .stream (some .small) => 2
  | .vectored => 8
  | _ => 0

end Mode

/-- src/som.rs:5-12 `SomType`. -/
inductive SomType where
  | none
  | left
deriving DecidableEq

/-- src/util/compile_context.rs:6-21 `CompileContext` and its `new`. -/
structure CompileContext where
  streaming : Bool
  vectored : Bool
  grey : Grey

/-- src/parser/parser_util.rs:5-12 `ParseMode`. -/
structure ParseMode where
  caseless : Bool
  dotall : Bool
  ignoreSpace : Bool
  multiline : Bool
  ucp : Bool
  utf8 : Bool
deriving DecidableEq

namespace ParseMode

/-- src/parser/parser_util.rs:4 `#[derive(Default)]`. -/
def default : ParseMode := ⟨false, false, false, false, false, false⟩
/-- src/parser/parser_util.rs:15-24 `new`. -/
def new (flags : Flags) : ParseMode where
  caseless := flags.contains .CASELESS
  dotall := flags.contains .DOTALL
  ignoreSpace := false
  multiline := flags.contains .MULTILINE
  ucp := flags.contains .UCP
  utf8 := flags.contains .UTF8

end ParseMode
end Rescan
