import Verif.Lemmas.NoStrip
import Verif.Lemmas.MainLoop
/-!
# Whole runs of the build without stripping
-/
set_option linter.unusedSectionVars false
namespace HBT.NoStrip
open HBT HBT.Model HBT.Spec HBT.Props HBT.MainLoop
variable {K D E S R : Type}

section
variable [LinearOrder E] [Zero E] [MassSum K] {cfg : UnbindConfig} {env : Nat → UnbindEnv K D E}

theorem unbindFull_noStrip {env : UnbindEnv K D E} (hs : EnvOk env) (hprec : Stops cfg.fl cfg.prec) :
    unbindFullNoStrip cfg env = unbindFull cfg (capEnv env) := by
  funext snap s
  exact unbind_noStrip hs.sort hprec _ snap s

theorem unbindNode_noStrip (hs : ∀ i, EnvOk (env i)) (hprec : Stops cfg.fl cfg.prec) :
    unbindNodeNoStrip cfg env = unbindNode cfg (fun i => capEnv (env i)) := by
  funext snap backup id subs
  rw [unbindNodeNoStrip, unbindNode]
  simp only [unbindFull_noStrip (hs id) hprec]
  congr 1

theorem recursiveUnbind_noStrip (hs : ∀ i, EnvOk (env i)) (hprec : Stops cfg.fl cfg.prec) :
    recursiveUnbindNoStrip cfg env = recursiveUnbind cfg (fun i => capEnv (env i)) := by
  funext snap fuel id subs
  rw [recursiveUnbindNoStrip, recursiveUnbind, unbindNode_noStrip hs hprec]

theorem refineHost_noStrip (hs : ∀ i, EnvOk (env i)) (hprec : Stops cfg.fl cfg.prec) :
    refineHostNoStrip cfg env = refineHost cfg (fun i => capEnv (env i)) := by
  funext snap fuel groups heads h subs
  rw [refineHostNoStrip, refineHost]
  simp only [recursiveUnbind_noStrip hs hprec]
  congr 1

theorem unbindAt_noStrip (hs : ∀ i, EnvOk (env i)) (hprec : Stops cfg.fl cfg.prec) :
    unbindAtNoStrip cfg env = unbindAt cfg (fun i => capEnv (env i)) := by
  funext snap i subs
  rw [unbindAtNoStrip, unbindAt]
  simp only [unbindFull_noStrip (hs i) hprec]

theorem refineParticles_noStrip (hs : ∀ i, EnvOk (env i)) (hprec : Stops cfg.fl cfg.prec) :
    refineParticlesNoStrip cfg env = refineParticles cfg (fun i => capEnv (env i)) := by
  funext snap fuel order lone groups heads subs
  rw [refineParticlesNoStrip, refineParticles]
  simp only [refineHost_noStrip hs hprec, unbindAt_noStrip hs hprec]

theorem unbindMerged_noStrip (hs : ∀ i, EnvOk (env i)) (hprec : Stops cfg.fl cfg.prec) :
    unbindMergedNoStrip cfg env = unbindMerged cfg (fun i => capEnv (env i)) := by
  funext snap merged i subs
  rw [unbindMergedNoStrip, unbindMerged]
  simp only [unbindAt_noStrip hs hprec]

theorem mergeTrapped_noStrip (hs : ∀ i, EnvOk (env i)) (hprec : Stops cfg.fl cfg.prec) :
    mergeTrappedNoStrip cfg env = mergeTrapped cfg (fun i => capEnv (env i)) := by
  funext mass snap fuel order each groups merged subs
  rw [mergeTrappedNoStrip, mergeTrapped]
  simp only [unbindMerged_noStrip hs hprec]

theorem mergeSubhalos_noStrip (hs : ∀ i, EnvOk (env i)) (hprec : Stops cfg.fl cfg.prec) :
    mergeSubhalosNoStrip cfg env = mergeSubhalos cfg (fun i => capEnv (env i)) := by
  funext mass on sunk snap fuel order each groups heads subs
  rw [mergeSubhalosNoStrip, mergeSubhalos]
  simp only [mergeTrapped_noStrip hs hprec]

end

/-- The same input with energies that are all negative. -/
noncomputable def capInput [LinearOrder E] [Zero E] {P : Nat} (w : SnapInput K D E S R P) : SnapInput K D (Capped E) S R P where
  snap := w.snap
  parts := w.parts
  halos := w.halos
  tableOrder := w.tableOrder
  feedOrder := w.feedOrder
  nestOrder := w.nestOrder
  maskOrder := w.maskOrder
  hostOrder := w.hostOrder
  loneOrder := w.loneOrder
  mergeOrder := w.mergeOrder
  eachOrder := w.eachOrder
  dist := w.dist
  env r st i := capEnv (w.env r st i)
  env' r st i := capEnv (w.env' r st i)
  sunk := w.sunk

theorem capInput_ok [LinearOrder E] [Zero E] {P : Nat} {b : Build K D S} {ids : List Int} {w : SnapInput K D E S R P}
    (h : SnapInputOk b ids w) : SnapInputOk b ids (capInput w) :=
  ⟨h.procs, h.few, h.snap, h.ids_, h.distinct, h.nonneg, h.enough, h.haloIds, h.noNull, h.members, h.tableOrder, h.feedOrder, h.nestOrder,
    h.maskOrder, h.hostOrder, h.loneOrder, h.mergeOrder, h.eachOrder,
    fun r st i => ⟨capEnv_ok (h.env r st i).1, (h.env r st i).2⟩, fun r st i => ⟨capEnv_ok (h.env' r st i).1, (h.env' r st i).2⟩⟩

/-- The solvers sort and shuffle. -/
def SolversOk [LE E] {P : Nat} (w : SnapInput K D E S R P) : Prop :=
  ∀ r st i, EnvOk (w.env r st i) ∧ EnvOk (w.env' r st i)

theorem refineMerge_noStrip [LinearOrder E] [Zero E] [MassSum K] {P : Nat} {b : Build K D S} (hprec : Stops b.cfg.fl b.cfg.prec)
    {w : SnapInput K D E S R P} (hw : SolversOk w) : refineMergeNoStrip b w = refineMerge b (capInput w) := by
  funext r p heads masked
  rw [refineMergeNoStrip, refineMerge]
  have h1 := fun (x : List (Sub K D)) => refineParticles_noStrip (env := w.env r x) (fun i => (hw r x i).1) hprec
  have h2 := fun (x : List (Sub K D)) => mergeSubhalos_noStrip (env := w.env' r x) (fun i => (hw r x i).2) hprec
  simp only [h1, h2]
  rfl

theorem finish_noStrip [LE K] [DecidableLE K] [LinearOrder E] [Zero E] [MassSum K] {P : Nat} {b : Build K D S} (hprec : Stops b.cfg.fl b.cfg.prec)
    {w : SnapInput K D E S R P} (hw : SolversOk w) : finishNoStrip b w = finish b (capInput w) := by
  funext p
  rw [finishNoStrip, finish, refineMerge_noStrip hprec hw]
  rfl

section
variable [LE K] [DecidableLE K] [LT K] [DecidableLT K] [MassSum K] [Mul K] [LT R] [DecidableLT R] [LinearOrder E] [Zero E] {P : Nat}
  {b : Build K D S}

theorem iteration_noStrip (hprec : Stops b.cfg.fl b.cfg.prec) {w : SnapInput K D E S R P} (hw : SolversOk w) :
    iterationNoStrip b w = iteration b (capInput w) := by
  funext prev
  rw [iterationNoStrip, iteration, finish_noStrip hprec hw]
  rfl

theorem takeSnapshot_noStrip (hprec : Stops b.cfg.fl b.cfg.prec) {w : SnapInput K D E S R P} (hw : SolversOk w) :
    takeSnapshotNoStrip b w = takeSnapshot b (capInput w) := by
  funext ops prev disks
  rw [takeSnapshotNoStrip, takeSnapshot, iteration_noStrip hprec hw]
  rfl

theorem session_noStrip (hprec : Stops b.cfg.fl b.cfg.prec) : ∀ (xs : List (SnapInput K D E S R P × List (WriteOp P))), (∀ x ∈ xs, SolversOk x.1) →
    sessionNoStrip b xs = session b (xs.map (fun x => (capInput x.1, x.2)))
  | [], _ => by funext st disks; rfl
  | x :: xs, h => by
    funext st disks
    rw [sessionNoStrip, List.map_cons, session, takeSnapshot_noStrip hprec (h x List.mem_cons_self),
      session_noStrip hprec xs (fun y hy => h y (List.mem_cons_of_mem _ hy))]

end
end HBT.NoStrip
