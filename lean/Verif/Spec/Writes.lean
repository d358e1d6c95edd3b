import Verif.Model.DumpSink
/-! # Specification of printing to a writer

A printer is specified by the calls it makes on its writer.  Of the model only the data types of
writers and outcomes are used. -/
namespace Rescan.Spec

/-- A call on a writer. -/
inductive Write where
  | str (s : Str)
  | chr (c : Char)

/-- The text of the calls. -/
def text : List Write → Str
  | [] => []
  | .str s :: ws => s ++ text ws
  | .chr c :: ws => c :: text ws

/-- Makes one call on the writer. -/
def perform {ε σ : Type} (w : Sink ε σ) (s : σ) : Write → Outcome ε σ
  | .str t => w.writeStr s t
  | .chr c => w.writeChar s c

/-- Makes the calls in order, stopping at the first that does not succeed. -/
def play {ε σ : Type} (w : Sink ε σ) : σ → List Write → Outcome ε σ
  | s, [] => .ok s
  | s, x :: ws =>
    match perform w s x with
    | .ok s' => play w s' ws
    | .err e => .err e
    | .panic m => .panic m
    | .timeout => .timeout

/-- An outcome that is no error, seen as an outcome with any error type. -/
def noErr {ε α : Type} : Outcome Empty α → Outcome ε α
  | .ok a => .ok a
  | .err e => nomatch e
  | .panic m => .panic m
  | .timeout => .timeout

end Rescan.Spec
