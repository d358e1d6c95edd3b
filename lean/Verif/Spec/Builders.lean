import Verif.Model.Component
import Verif.Model.CharReach
import Verif.Model.Report
/-! # Specification of the builders of sequences and graphs, used in any way -/
namespace Rescan.Spec

/-- A call on a sequence under construction: add a component, or end an alternative. -/
inductive SeqCall where
  | component (c : Component)
  | bar

/-- The components given between the bars. -/
def pieces : List SeqCall → List (List Component)
  | [] => [[]]
  | .component c :: rest =>
    match pieces rest with
    | [] => [[c]]
    | cs :: ps => (c :: cs) :: ps
  | .bar :: rest => [] :: pieces rest

/-- A call on a graph builder: make a position, or add bytes to one. -/
inductive GraphCall where
  | make
  | reach (pos : Nat) (cr : CharReach)

/-- How many positions are made. -/
def makes (calls : List GraphCall) : Nat := (calls.filter fun c => match c with | .make => true | _ => false).length

/-- Only positions made before, or among the first `n`, get bytes, and there are never more than the index type
allows. -/
def InRange (n : Nat) (calls : List GraphCall) : Prop :=
  n + makes calls ≤ 2 ^ 32 - 1 ∧
  ∀ (i pos : Nat) (cr : CharReach), calls[i]? = some (.reach pos cr) → pos < n + makes (calls.take i)

/-- A call on a report manager. -/
inductive ReportCall where
  | id (r : Report)
  | key (a : Nat)
  | register (id : Nat) (ext : ExternalReportInfo)

/-- What a call on a report manager answers. -/
inductive ReportAnswer where
  | id (x : Except CompileError Nat)
  | key (k : Nat)
  | register (x : Except CompileError Unit)

/-- The requests for internal ids among some calls. -/
def idCalls (cs : List ReportCall) : List Report := cs.filterMap fun c => match c with | .id r => some r | _ => none
/-- The requests for exhaustion keys among some calls. -/
def keyCalls (cs : List ReportCall) : List Nat := cs.filterMap fun c => match c with | .key a => some a | _ => none
/-- The registrations among some calls. -/
def registerCalls (cs : List ReportCall) : List (Nat × ExternalReportInfo) :=
  cs.filterMap fun c => match c with | .register i e => some (i, e) | _ => none
/-- The answers to requests for internal ids. -/
def idAnswers (as : List ReportAnswer) : List (Except CompileError Nat) :=
  as.filterMap fun c => match c with | .id x => some x | _ => none
/-- The answers to requests for exhaustion keys. -/
def keyAnswers (as : List ReportAnswer) : List Nat := as.filterMap fun c => match c with | .key k => some k | _ => none
/-- The answers to registrations. -/
def registerAnswers (as : List ReportAnswer) : List (Except CompileError Unit) :=
  as.filterMap fun c => match c with | .register x => some x | _ => none

end Rescan.Spec
