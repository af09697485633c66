import Verif.Props.Threads
import Verif.Props.RunExample
/-!
# Threads in a concrete run

The hypotheses of the theorems of `Props/Threads` are met, and what does not hold.
-/
namespace HBT.Props
open HBT HBT.Model HBT.Spec HBT.Spec.Forest HBT.Threads

/-- A memory for a process with this hierarchy. -/
def tWorld (subs : List (Sub ℚ Nat)) (groups heads : List (List Nat)) (field : List Nat) : World ℚ Nat :=
  { subs := subs, groups := groups, field := field, heads := heads, nestSize := groups.map (fun _ => 0)
    hostTrack := List.replicate subs.length (-1), isMerged := List.replicate subs.length false, isHead := subs.map (fun _ => false) }

theorem tWorld_in (subs : List (Sub ℚ Nat)) (groups heads : List (List Nat)) (field : List Nat) :
    InMemory (tWorld subs groups heads field) subs groups heads field := ⟨rfl, rfl, rfl, rfl⟩

example : ∃ w w' : World ℚ Nat, InMemory w' (rD2.nested 0).1 [[2, 1, 0]] (rD2.nested 0).2 [] ∧
    Completes Races (nestPhases 3 3 1 0) (memOf w) (memOf w') := by
  obtain ⟨loc, e, h⟩ := C61_nest (rPar_ok false) rRun2
  have hl : (loc 0).length = 3 := by
    have e3 : isOk (localizeNestedIds (rPar false).chunk (rPar false).sortKeys (rPar false).bsearch (fun r => rD2.old r ++ rD2.new r)) = true ∧
      ((okOr (localizeNestedIds (rPar false).chunk (rPar false).sortKeys (rPar false).bsearch (fun r => rD2.old r ++ rD2.new r)) (fun _ => [])) 0).length = 3 := by
      decide +kernel
    rw [e] at e3
    exact e3.2
  obtain ⟨w', h1, h2⟩ := h 0 (tWorld (loc 0) [[2, 1, 0]] [[]] []) [[]] (tWorld_in _ _ _ _) (by decide +kernel) (by simp [tWorld])
  rw [hl] at h2
  exact ⟨_, w', h1, h2⟩

example : Completes Races (maskPhases 3 1) (memOf (tWorld (rD2.nested 0).1 [[2, 1, 0]] (rD2.nested 0).2 []))
    (memOf { tWorld (rD2.nested 0).1 [[2, 1, 0]] (rD2.nested 0).2 [] with subs := rD2.masked 0 }) := by
  have hl : (rD2.nested 0).1.length = 3 := by decide +kernel
  have := C61_mask (rPar_ok false) rRun2 0 (tWorld (rD2.nested 0).1 [[2, 1, 0]] (rD2.nested 0).2 []) (tWorld_in _ _ _ _)
  rw [hl] at this
  exact this

example : Completes Races (refinePhases (rPar false).cfg (rD2.env 0) 2 3 1 0 3 0) (memOf (tWorld (rD2.masked 0) [[2, 1, 0]] (rD2.nested 0).2 []))
    (memOf { tWorld (rD2.masked 0) [[2, 1, 0]] (rD2.nested 0).2 [] with subs := rD2.refined 0 }) := by
  have hl : (rD2.masked 0).length = 3 ∧ (rD2.old 0).length = 3 := by decide +kernel
  have := C61_refine (rPar_ok false) rRun2 0 (tWorld (rD2.masked 0) [[2, 1, 0]] (rD2.nested 0).2 []) (tWorld_in _ _ _ _)
  rw [hl.1, hl.2] at this
  exact this

example : ∃ w' : World ℚ Nat, w'.subs = rD2.merged 0 ∧
    Completes Clashes (mergePhases (rPar false).cfg (rD2.env' 0) (rPar false).mass true (rD2.sunk 0) 2 4 3 1)
      (memOf (tWorld (rD2.refined 0) [[2, 1, 0]] (rD2.nested 0).2 [])) (memOf w') := by
  have hl : (rD2.refined 0).length = 3 := by decide +kernel
  obtain ⟨w', h1, h2⟩ := C61_merge (rPar_ok false) rRun2 0 (tWorld (rD2.refined 0) [[2, 1, 0]] (rD2.nested 0).2 []) (tWorld_in _ _ _ _) rfl rfl rfl
  rw [hl] at h2
  exact ⟨w', h1.subs, h2⟩

example : ∃ w w' : World ℚ Nat, w'.subs = rD2.out 0 ∧ ∃ reg : List (Sub ℚ Nat),
    Completes Races (updatePhases ((rPar false).sortMass reg) 2 [300] reg.length reg.length 1 0) (memOf w) (memOf w') := by
  obtain ⟨reg, e, h⟩ := C61_update (rPar_ok false) rRun2
  obtain ⟨t, gs, f, e1, e2, e3, h⟩ := h 0
  obtain ⟨w', h1, h2⟩ := h (tWorld (reg 0) gs (rD2.nested 0).2 f) (tWorld_in _ _ _ _)
  have hf : f = [] := by
    have hc : ∃ r t, registerNewTracks rD2.merged (fun r => (rD2.new r).length) = .ok r ∧
        buildTable (rPar false).sortMass (rD2.haloIds 0).length (r 0) true = .ok t ∧ t.group (-1) = .ok [] := by
      refine ⟨okOr (registerNewTracks rD2.merged (fun r => (rD2.new r).length)) (fun _ => []), _, ok_okOr _ (by decide +kernel), ok_okOr ⟨[], [], 0⟩ (by decide +kernel), ?_⟩
      decide +kernel
    obtain ⟨r, t', c1, c2, c3⟩ := hc
    rw [e] at c1
    cases c1
    rw [e1] at c2
    cases c2
    rw [e3] at c3
    cases c3
    rfl
  rw [hf] at h2
  exact ⟨_, w', h1.subs, reg 0, h2⟩

/-! ## The race of `DetectTraps` -/

variable {L : Type} {V : L → Type} {T : Nat} [DecidableEq L]

/-- The step of a thread. -/
def stepOf (s : State L V T) (t : Fin T) : Option (State L V T) :=
  match s.work t with
  | (.ret () :: ps) :: rest => some ⟨s.mem, Function.update s.work t (ps :: rest)⟩
  | (.read ℓ k :: ps) :: rest => match s.mem ℓ with
    | some v => some ⟨s.mem, Function.update s.work t ((k v :: ps) :: rest)⟩
    | none => none
  | (.write ℓ v k :: ps) :: rest => match s.mem ℓ with
    | some _ => some ⟨Function.update s.mem ℓ (some v), Function.update s.work t ((k :: ps) :: rest)⟩
    | none => none
  | (.fetch ℓ f k :: ps) :: rest => match s.mem ℓ with
    | some v => some ⟨Function.update s.mem ℓ (some (f v)), Function.update s.work t ((k v :: ps) :: rest)⟩
    | none => none
  | _ => none

theorem stepOf_step {s s' : State L V T} {t : Fin T} (h : stepOf s t = some s') : Step s s' := by
  unfold stepOf at h
  split at h
  · next ps rest hw => cases h; exact .next t ps rest hw
  · next ℓ k ps rest hw =>
    split at h
    · next v hv => cases h; exact .read t ℓ v k ps rest hw hv
    · cases h
  · next ℓ v k ps rest hw =>
    split at h
    · next old hv => cases h; exact .write t ℓ v old k ps rest hw hv
    · cases h
  · next ℓ f k ps rest hw =>
    split at h
    · next v hv => cases h; exact .fetch t ℓ v f k ps rest hw hv
    · cases h
  · cases h

/-- Only thread `t` runs, until `stop` or for `n` steps. -/
def goOn (stop : State L V T → Bool) (t : Fin T) : Nat → State L V T → State L V T
  | 0, s => s
  | n + 1, s => if stop s then s else match stepOf s t with
    | some s' => goOn stop t n s'
    | none => s

theorem goOn_steps (stop : State L V T → Bool) (t : Fin T) : ∀ (n : Nat) (s : State L V T), Steps s (goOn stop t n s) := by
  intro n
  induction n with
  | zero => intro s; exact Relation.ReflTransGen.refl
  | succ n ih =>
    intro s
    rw [goOn]
    split
    · exact Relation.ReflTransGen.refl
    · split
      · next s' hs => exact Relation.ReflTransGen.head (stepOf_step hs) (ih s')
      · exact Relation.ReflTransGen.refl

/-- All threads are at the barrier. -/
def atBarrier (s : State L V T) : Bool := (List.finRange T).all (fun t => match s.work t with | [] :: _ => true | _ => false)

/-- They pass it. -/
def pass (s : State L V T) : State L V T := if atBarrier s then ⟨s.mem, fun t => (s.work t).tail⟩ else s

theorem pass_steps (hT : 0 < T) (s : State L V T) : Steps s (pass s) := by
  unfold pass
  split
  · next h =>
    refine Relation.ReflTransGen.single (.barrier _ hT (fun t => ?_))
    rw [atBarrier, List.all_eq_true] at h
    have := h t (List.mem_finRange t)
    split at this
    · next hw => rw [hw]; rfl
    · cases this
  · exact Relation.ReflTransGen.refl

/-- The next access of a thread is the mark of subhalo 2. -/
def marks (t : Fin 2) (s : State Loc (Loc.Val ℚ Nat) 2) : Bool :=
  match s.nextOf t with
  | some (.write (.isMerged 2) _) => true
  | _ => false

/-- The third snapshot of the example, but both `a` and `b` have sunk into `c`. -/
def rX2s : Inputs ℚ Nat Int 2 := { rX2 with sunk := fun _ i h => i ≠ 2 ∧ h = 2 }
def rD2s := rCompute (rPar false) rX2s

theorem rRun2s : Run (rPar false) [⟨2, rD2s⟩, ⟨2, rD1⟩, ⟨2, rD0⟩] :=
  .next _ rD2s rRun1
    (rInputs_ok (by decide +kernel) (by decide +kernel) (by decide +kernel) (by decide +kernel) (by decide +kernel) (by decide +kernel)
      (by decide +kernel) (by decide +kernel) (by decide +kernel) (by decide +kernel) (by decide +kernel)
      (fun r => carried_of_checks (by revert r; decide +kernel) (by revert r; decide +kernel)) (by decide +kernel) (by decide +kernel)
      (fun _ _ => ⟨_, _, rfl, rfl⟩))
    (by decide +kernel)
    (rComputed rfl (by decide +kernel) (by decide +kernel) (by decide +kernel) (by decide +kernel) (by decide +kernel))

def tMerge : World ℚ Nat := tWorld (rD2s.refined 0) [[2, 1, 0]] (rD2s.nested 0).2 []
def tMergePhases : List (List (TProg ℚ Nat Unit)) :=
  mergePhases (rPar false).cfg (rD2s.env' 0) (rPar false).mass true (rD2s.sunk 0) 2 4 3 1

/-- The first thread does the first iteration of each loop, the second thread the others. -/
def tStart : State Loc (Loc.Val ℚ Nat) 2 :=
  ⟨memOf tMerge, fun t => tMergePhases.map (fun ps => if t = 0 then ps.take 1 else ps.drop 1)⟩

/-- One loop to its end. -/
def tPhase (s : State Loc (Loc.Val ℚ Nat) 2) : State Loc (Loc.Val ℚ Nat) 2 :=
  pass (goOn (fun _ => false) 1 100 (goOn (fun _ => false) 0 100 s))

theorem tPhase_steps (s : State Loc (Loc.Val ℚ Nat) 2) : Steps s (tPhase s) :=
  (goOn_steps _ _ _ _).trans ((goOn_steps _ _ _ _).trans (pass_steps (by decide) _))

/-- After three loops, both threads run until they are about to mark subhalo 2. -/
def tRace : State Loc (Loc.Val ℚ Nat) 2 := goOn (marks 1) 1 100 (goOn (marks 0) 0 100 (tPhase (tPhase (tPhase tStart))))

theorem tShares : ∀ phases : List (List (TProg ℚ Nat Unit)), Shares (T := 2) phases (fun t => phases.map (fun ps => if t = 0 then ps.take 1 else ps.drop 1))
  | [] => fun _ => rfl
  | ps :: phases => ⟨fun t => if t = 0 then ps.take 1 else ps.drop 1, _, fun _ => rfl, by
      have e : List.finRange 2 = [0, 1] := by decide
      rw [e]
      cases ps <;> simp, tShares phases⟩

theorem marks_next {t : Fin 2} {s : State Loc (Loc.Val ℚ Nat) 2} (h : marks t s = true) : ∃ v, s.nextOf t = some (.write (.isMerged 2) v) := by
  unfold marks at h
  split at h
  · next v hv => exact ⟨v, hv⟩
  · cases h

/-- What does not hold: `DetectTraps` has a data race. If two subhaloes sink into the same subhalo, two threads may write its flag `IsMerged` at the same time
(src/subhalo_merge.cpp:154). By `C61_merge` both write the same value, and there is no other race. -/
theorem C61_flag_race : Run (rPar false) [⟨2, rD2s⟩, ⟨2, rD1⟩, ⟨2, rD0⟩] ∧
    ∃ w : World ℚ Nat, InMemory w (rD2s.refined 0) (rD2s.groups 0) (rD2s.nested 0).2 (rD2s.field 0) ∧ w.nestSize.length = (rD2s.groups 0).length ∧
      w.hostTrack = List.replicate (rD2s.refined 0).length (-1) ∧ w.isMerged = List.replicate (rD2s.refined 0).length false ∧
      ∀ m', ¬ Completes Races (mergePhases (rPar false).cfg (rD2s.env' 0) (rPar false).mass (rPar false).merging (rD2s.sunk 0) rD2s.snap
        ((rD2s.refined 0).length + 1) (rD2s.refined 0).length (rD2s.groups 0).length) (memOf w) m' := by
  refine ⟨rRun2s, tMerge, tWorld_in _ _ _ _, rfl, rfl, rfl, fun m' h => ?_⟩
  have hl : (rD2s.refined 0).length = 3 := by decide +kernel
  rw [hl] at h
  obtain ⟨_, h2⟩ := h 2 _ (by decide) (tShares tMergePhases)
  have hst : Steps tStart tRace := (tPhase_steps _).trans ((tPhase_steps _).trans ((tPhase_steps _).trans ((goOn_steps _ _ _ _).trans (goOn_steps _ _ _ _))))
  have hm : marks 0 tRace = true ∧ marks 1 tRace = true := by decide +kernel
  obtain ⟨v, hv⟩ := marks_next hm.1
  obtain ⟨v', hv'⟩ := marks_next hm.2
  exact (h2 _ hst).1 ⟨0, 1, _, _, by decide, hv, hv', rfl⟩

end HBT.Props
