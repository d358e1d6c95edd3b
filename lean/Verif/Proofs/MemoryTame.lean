import Verif.Proofs.MemoryLogic
/-! # The compiler's runs respect the limit and depend on it in no other way -/
namespace Rescan.Memory

open Rescan.Spec

variable {ε : Type}

theorem tame_finalize (s : ComponentSequence) : Tame (finalize s : H ε ComponentSequence) := by
  unfold finalize; tame

theorem tame_readControlVerbs (input : Str) (start : Nat) (mode : ParseMode) : Tame (readControlVerbs input start mode) := by
  unfold readControlVerbs; tame

theorem tame_main (pr : Profile) (c : Context) (ts : Str) : Tame (main pr c ts) := by
  unfold main
  have := tame_finalize (ε := CompileError) c.currentSeq
  tame

theorem tame_mainLoop (pr : Profile) : ∀ (fuel : Nat) (c : Context), Tame (mainLoop pr fuel c)
  | 0, c => by rw [mainLoop]; tame
  | fuel + 1, c => by
    rw [mainLoop]
    split
    · tame
    · exact (Tame.onError _ (tame_main pr c c.p)).bind fun c => tame_mainLoop pr fuel c

theorem tame_finish (c : Context) : Tame (finish c) := by
  unfold finish
  split
  · exact Tame.onError _ (Tame.fail _)
  · exact tame_finalize c.currentSeq

theorem tame_parse (pr : Profile) (ptr : Str) (mode : ParseMode) : Tame (parse pr ptr mode) := by
  unfold parse
  refine (tame_readControlVerbs ptr 0 mode).bind fun x => (tame_mainLoop pr _ _).bind fun c => (tame_finish c).bind fun r => ?_
  tame

theorem tame_preLiteralClass (lit : Ue2Literal) (c : AsciiComponentClass) : Tame (preLiteralClass lit c) := by
  unfold preLiteralClass; tame

mutual
theorem tame_walkComponent (p : Profile) : ∀ (c : Component) (lit : Ue2Literal), Tame (walkComponent p lit c)
  | .alternation a, lit => by rw [walkComponent]; tame
  | .cls (.ascii c), lit => by rw [walkComponent]; exact tame_preLiteralClass lit c
  | .sequence s, lit => by rw [walkComponent]; exact tame_walkSequence p s lit
theorem tame_walkSequence (p : Profile) : ∀ (s : ComponentSequence) (lit : Ue2Literal), Tame (walkSequence p lit s)
  | .mk cs a i n, lit => by rw [walkSequence]; exact (Tame.onError _ (Tame.ret _)).bind fun _ => tame_walkComponents p cs lit
theorem tame_walkComponents (p : Profile) : ∀ (cs : List Component) (lit : Ue2Literal), Tame (walkComponents p lit cs)
  | [], lit => by rw [walkComponents]; tame
  | c :: cs, lit => by rw [walkComponents]; exact (tame_walkComponent p c lit).bind fun l => tame_walkComponents p cs l
end

theorem tame_descend (st : LitTrie × Nat) (c : U8) : Tame (descend st c : H ε _) := by
  unfold descend; tame

theorem tame_descendAll : ∀ (cs : List U8) (st : LitTrie × Nat), Tame (descendAll cs st : H ε _)
  | [], st => by rw [descendAll]; tame
  | c :: cs, st => by rw [descendAll]; exact (tame_descend st c).bind fun st' => Tame.onError _ (tame_descendAll cs st')

theorem tame_addToTrie (lit : Ue2Literal) (r : Nat) (t : LitTrie) : Tame (addToTrie lit r t : H ε _) := by
  unfold addToTrie
  refine (tame_descendAll _ _).bind fun x => ?_
  tame

theorem tame_smallAddLiteral (sw : SmallWriteBuild) (lit : Ue2Literal) (r : Nat) : Tame (smallAddLiteral sw lit r : H ε _) := by
  unfold smallAddLiteral
  dsimp only
  have h := tame_addToTrie (ε := ε) lit r sw.litTrie
  have h' := tame_addToTrie (ε := ε) lit r sw.litTrieNocase
  tame

theorem tame_registerExtReport (rm : ReportManager) (id : Nat) (ext : ExternalReportInfo) : Tame (registerExtReport rm id ext) := by
  unfold registerExtReport; tame

theorem tame_getExhaustibleKey (old rm : ReportManager) (a : Nat) : Tame (getExhaustibleKey old rm a : H ε _) := by
  unfold getExhaustibleKey; tame

theorem tame_getInternalId (old rm : ReportManager) (r : Report) : Tame (getInternalId old rm r) := by
  unfold getInternalId; tame

theorem tame_ngAddLiteral (p : Profile) (ng : Ng) (lit : Ue2Literal) (i r : Nat) (hl : Bool) (som : SomType) (q : Bool) :
    Tame (ngAddLiteral p ng lit i r hl som q) := by
  unfold ngAddLiteral
  refine (Tame.ret _).bind fun _ => ?_
  split
  · tame
  split
  · tame
  refine (tame_registerExtReport _ _ _).bind fun rm => Tame.bind ?_ fun x => ?_
  · split
    · refine Tame.bind ?_ fun y => (tame_getInternalId _ _ _).bind fun z => ?_
      · split
        · exact (tame_getExhaustibleKey _ _ _).bind fun _ => Tame.pure _
        · exact Tame.pure _
      · exact Tame.pure _
    · exact (Tame.onError _ (Tame.ret _)).bind fun _ => (tame_getInternalId _ _ _).bind fun z => Tame.pure _
  · refine (Tame.alloc _).bind fun _ => (Tame.free _).bind fun _ => ?_
    split
    · tame
    · exact (Tame.onError _ (tame_smallAddLiteral _ _ _)).bind fun _ => Tame.pure _

theorem tame_addSuccessors (m : List (Nat × List PositionInfo)) (pos : Nat) (l : List PositionInfo) :
    Tame (addSuccessors m pos l : H ε _) := by
  unfold addSuccessors; tame

theorem tame_connectSuccessors (p : Profile) (bs : GlushkovBuildState) (f : PositionInfo) (l : List PositionInfo) :
    Tame (connectSuccessors p bs f l : H ε _) := by
  unfold connectSuccessors
  refine Tame.dropAfter _ ((Tame.ret _).bind fun _ => (Tame.ret _).bind fun t => ?_)
  split
  · refine (Tame.ret _).bind fun x => (Tame.alloc _).bind fun _ => ?_
    exact (Tame.pure _).bind fun _ => (tame_addSuccessors _ _ _).bind fun _ => Tame.pure _
  · exact (Tame.pure _).bind fun _ => (tame_addSuccessors _ _ _).bind fun _ => Tame.pure _

theorem tame_connectRegions (p : Profile) (firsts : List PositionInfo) : ∀ (lasts : List PositionInfo) (bs : GlushkovBuildState),
    Tame (connectRegions p firsts lasts bs : H ε _)
  | [], bs => by rw [connectRegions]; tame
  | l :: ls, bs => by
    rw [connectRegions]
    exact (Tame.alloc _).bind fun _ => (tame_connectSuccessors _ _ _ _).bind fun bs' =>
      Tame.onError _ (tame_connectRegions p firsts ls bs')

theorem tame_newState (p : Profile) (b : NfaBuilder) : Tame (newState p b : H ε _) := by
  unfold newState
  exact (Tame.alloc _).bind fun _ => (Tame.alloc _).bind fun _ => 
    Tame.dropAfter _ (Tame.onError _ (tame_connectRegions _ _ _ _))

mutual
theorem tame_noteComponent : ∀ (c : Component) (bs : GlushkovBuildState), Tame (noteComponent bs c : H ε _)
  | .alternation (.mk ss), bs => by rw [noteComponent]; exact tame_noteSequences ss bs
  | .cls (.ascii c), bs => by rw [noteComponent]; tame
  | .sequence s, bs => by rw [noteComponent]; exact tame_noteSequence s bs
theorem tame_noteSequence : ∀ (s : ComponentSequence) (bs : GlushkovBuildState), Tame (noteSequence bs s : H ε _)
  | .mk cs a i n, bs => by rw [noteSequence]; exact tame_noteComponents cs bs
theorem tame_noteSequences : ∀ (ss : List ComponentSequence) (bs : GlushkovBuildState), Tame (noteSequences bs ss : H ε _)
  | [], bs => by rw [noteSequences]; tame
  | s :: ss, bs => by rw [noteSequences]; exact (tame_noteSequence s bs).bind fun b => Tame.onError _ (tame_noteSequences ss b)
theorem tame_noteComponents : ∀ (cs : List Component) (bs : GlushkovBuildState), Tame (noteComponents bs cs : H ε _)
  | [], bs => by rw [noteComponents]; tame
  | c :: cs, bs => by rw [noteComponents]; exact (tame_noteComponent c bs).bind fun b => Tame.onError _ (tame_noteComponents cs b)
end

theorem tame_shortcutLiteral (p : Profile) (ng : Ng) (pe : ParsedExpression) : Tame (shortcutLiteral p ng pe) := by
  unfold shortcutLiteral
  split
  · tame
  · refine (tame_walkComponent p _ _).thenDo fun o => ?_
    cases o with
    | err e => exact Tame.pure _
    | panic s => exact Tame.ret _
    | timeout => exact Tame.ret _
    | ok lit =>
      refine Tame.dropAfter _ ?_
      split
      · exact Tame.pure _
      · exact (Tame.ret _).bind fun i => tame_ngAddLiteral _ _ _ _ _ _ _ _

theorem tame_parsedNew (p : Profile) (i : Nat) (e : Str) (f : Flags) (id : Nat) : Tame (parsedNew p i e f id) := by
  unfold parsedNew
  dsimp only
  split
  · exact Tame.fail _
  · exact (tame_parse _ _ _).bind fun _ => Tame.pure _

theorem tame_buildGraph (p : Profile) (pe : ParsedExpression) : Tame (buildGraph p pe : H ε _) := by
  unfold buildGraph newBuilder
  refine Tame.bind (by tame) fun b => (tame_newState p b).bind fun bs =>
    (Tame.onError _ (tame_noteComponent _ bs)).bind fun bs => ?_
  tame

theorem tame_addExpression (p : Profile) (ng : Ng) (i : Nat) (e : Str) (f : Flags) (id : Nat) :
    Tame (addExpression p ng i e f id) := by
  unfold addExpression
  split
  · exact Tame.fail _
  · refine (tame_parsedNew p i e f id).bind fun pe => Tame.dropAfter _ ((tame_shortcutLiteral _ _ _).bind fun x => ?_)
    dsimp only
    split
    · exact Tame.pure _
    · exact (tame_buildGraph _ _).bind fun b => Tame.dropAfter _ (Tame.pure _)

theorem tame_addAll (p : Profile) : ∀ (xs : List (Str × Flags × Nat)) (i : Nat) (ng : Ng), Tame (addAll p i ng xs)
  | [], i, ng => by rw [addAll]; exact Tame.pure _
  | (e, f, id) :: xs, i, ng => by
    rw [addAll]
    refine (tame_addExpression p ng i e f id).thenDo fun o => ?_
    cases o with
    | ok ng' => exact tame_addAll p xs (i + 1) ng'
    | err e => exact (Tame.onError _ (Tame.ret _)).bind fun _ => (Tame.onError _ (Tame.ret _)).bind fun _ =>
        (Tame.free _).bind fun _ => Tame.ret _
    | panic s => exact (Tame.free _).bind fun _ => Tame.ret _
    | timeout => exact Tame.ret _

theorem tame_compileMultiInt (p : Profile) (es : List Str) (fs : List Flags) (ids : List Nat) (mode : Mode) (g : Grey) :
    Tame (compileMultiInt p es fs ids mode g) := by
  unfold compileMultiInt
  split
  · exact Tame.fail _
  split
  · exact Tame.fail _
  refine (Tame.alloc _).bind fun _ => (Tame.alloc _).bind fun _ => (Tame.alloc _).bind fun _ =>
    (tame_addAll p _ _ _).bind fun ng => (Tame.free _).bind fun _ => Tame.pure _

end Rescan.Memory
