import Verif.Model.Prim
/-! # src/util/report.rs, src/util/report_manager.rs, src/util/compile_error.rs, src/grey.rs -/
namespace Rescan

namespace CompileError

/-- src/util/compile_error.rs:29-35 `new`. -/
def new (kind : ErrorKind) (why : String) : CompileError := ⟨kind, why, none⟩
/-- src/util/compile_error.rs:37-43 `with_index`. -/
def withIndex (index : Nat) (why : String) : CompileError := ⟨.other, why, some index⟩
/-- src/util/compile_error.rs:45-48 `set_expression_index` (the `debug_assert!` panics when an index
is already present). -/
def setExpressionIndex (p : Profile) (e : CompileError) (index : Nat) : Res CompileError := do
  rdebugAssert p e.index.isNone "assertion failed: self.index.is_none()"
  return { e with index := some index }
/-- src/util/compile_error.rs:51-58 `Display::fmt`. -/
def display (e : CompileError) : String :=
  match e.index with
  | some index => e.reason ++ " in expression " ++ toString index
  | none => e.reason

end CompileError

/-- src/grey.rs:3-19 `Grey`. -/
structure Grey where
  allowLiteral : Bool
  floodAsPuffette : Bool
  shortcutLiterals : Bool
  allowSmallWrite : Bool
  smallWriteLargestBuffer : Nat
  smallWriteMaxPatterns : Nat
  smallWriteMaxLiterals : Nat
  limitPatternCount : Nat
  limitPatternLength : Nat
  limitReportCount : Nat
deriving DecidableEq

/-- src/grey.rs:21-36 `Default`. -/
def Grey.default : Grey where
  allowLiteral := true
  floodAsPuffette := false
  shortcutLiterals := true
  allowSmallWrite := true
  smallWriteLargestBuffer := 70
  smallWriteMaxPatterns := 10000
  smallWriteMaxLiterals := 10000
  limitPatternCount := 8000000
  limitPatternLength := 16000
  limitReportCount := 4 * 8000000

/-- src/util/report.rs:2-5 `Report`; `min_length : u64`. -/
structure Report where
  minLength : Nat
deriving DecidableEq

/-- src/util/report.rs:7-14 `make_e_callback`: every argument is ignored. -/
def makeECallback (_report : Nat) (_offsetAdjust : Int) (_ekey : Option Nat) (_quiet : Bool) :
    Report := ⟨0⟩

/-- src/util/report.rs:16-22 `make_som_relative_callback`: every argument is ignored. -/
def makeSomRelativeCallback (_report : Nat) (_offsetAdjust : Int) (_distance : Nat) : Report := ⟨0⟩

/-- src/util/report_manager.rs:7-19 `ExternalReportInfo` and its `new`. -/
structure ExternalReportInfo where
  highlander : Bool
  firstPatternIndex : Nat
deriving DecidableEq

/-- src/util/report_manager.rs:22-41 `ReportManager`.  The maps are association lists (only keyed
lookup, `len` and insertion of absent keys are used).  Of the `grey` reference only
`limit_report_count` is read. -/
structure ReportManager where
  limitReportCount : Nat
  reportIds : List Report
  reportIdToInternalMap : List (Report × Nat)
  externalIdMap : List (Nat × ExternalReportInfo)
  toExhaustibleKeyMap : List (Int × Nat)
  globalExhaust : Bool

namespace ReportManager

/-- src/util/report_manager.rs:44-53 `new`. -/
def new (g : Grey) : ReportManager where
  limitReportCount := g.limitReportCount
  reportIds := []
  reportIdToInternalMap := []
  externalIdMap := []
  toExhaustibleKeyMap := []
  globalExhaust := true

/-- src/util/report_manager.rs:86-88 `num_reports`. -/
def numReports (rm : ReportManager) : Nat := rm.reportIds.length

/-- src/util/report_manager.rs:70, 140-144, src/lib.rs:126, src/parser/shortcut_literal.rs:79:
`usize → u32` via `try_into().expect(msg)`. -/
def toU32 {ε : Type} (n : Nat) (msg : String) : Outcome ε Nat :=
  if n < 2 ^ 32 then .ok n else .panic msg

/-- src/util/report_manager.rs:56-74 `get_internal_id`: the manager after the call and the `Result`
(the manager is unchanged on `Err`). -/
def getInternalId (rm : ReportManager) (ir : Report) :
    Outcome Empty (ReportManager × Except CompileError Nat) :=
  match alookup rm.reportIdToInternalMap ir with
  | some id => .ok (rm, .ok id)
  | none =>
    if rm.numReports ≥ rm.limitReportCount then
      .ok (rm, .error (CompileError.new .resourceLimit "Resource limit exceeded."))
    else do
      let size ← toU32 rm.reportIds.length "too many reports"
      return ({ rm with
        reportIds := rm.reportIds ++ [ir]
        reportIdToInternalMap := (ir, size) :: rm.reportIdToInternalMap }, .ok size)

/-- src/util/report_manager.rs:81-83 `get_report`: indexing panics when out of bounds. -/
def getReport {ε : Type} (rm : ReportManager) (id : Nat) : Outcome ε Report :=
  Outcome.expect rm.reportIds[id]? "index out of bounds"

/-- src/util/report_manager.rs:102-117: the conflict message. -/
def conflictMessage (id : Nat) (ext eri : ExternalReportInfo) : String :=
  "Expression (index " ++ toString ext.firstPatternIndex ++ ") with match ID " ++ toString id ++ " "
    ++ (if ext.highlander then "specified " else "did not sepcify ")
    ++ " SINGLEMATCH whereas previous expression (index " ++ toString eri.firstPatternIndex
    ++ ") with the same match ID did" ++ (if eri.highlander then " not." else ".")

/-- src/util/report_manager.rs:92-131 `register_ext_report`: the manager after the call and the
`Result`. -/
def registerExtReport (rm : ReportManager) (id : Nat) (ext : ExternalReportInfo) :
    ReportManager × Except CompileError Unit :=
  let finish (rm : ReportManager) : ReportManager × Except CompileError Unit :=
    (if !ext.highlander then { rm with globalExhaust := false } else rm, .ok ())
  match alookup rm.externalIdMap id with
  | some eri =>
    if eri.highlander ≠ ext.highlander then
      (rm, .error (CompileError.withIndex ext.firstPatternIndex (conflictMessage id ext eri)))
    else finish rm
  | none => finish { rm with externalIdMap := (id, ext) :: rm.externalIdMap }

/-- src/util/report_manager.rs:139-146 `get_exhaustible_key`. -/
def getExhaustibleKey {ε : Type} (rm : ReportManager) (a : Nat) :
    Outcome ε (ReportManager × Nat) := do
  let size ← toU32 rm.toExhaustibleKeyMap.length "too many expressions"
  match alookup rm.toExhaustibleKeyMap (a : Int) with
  | some k => return (rm, k)
  | none =>
    return ({ rm with toExhaustibleKeyMap := ((a : Int), size) :: rm.toExhaustibleKeyMap }, size)

end ReportManager
end Rescan
