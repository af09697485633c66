import Verif.Lemmas.SpmdMpi
import Verif.Lemmas.SpmdPartition
import Verif.Model.SpmdNest
import Verif.Props.Mpi
set_option linter.unusedSectionVars false
/-!
# The programs for nesting and registration do what the model for all processes says
-/
namespace HBT.Spmd
open HBT HBT.Model HBT.Props
variable {P : Nat} {K D α : Type}

theorem receiveTracks_runs {chunk : Nat} (hc : 0 < chunk) {root : Fin P} {lost received : Fin P → List Int} :
    Runs (fun r => receiveTracks chunk root r (lost r) (received r)) (fun _ => lost root) := by
  unfold receiveTracks
  refine Runs.bind (runs_bcast1 (x := fun r => (lost r).length)) ?_
  have hb := C12_bcast chunk hc root (fun _ => (lost root).length) (lost root) (le_refl _)
  refine Runs.bind (bcastList_runs (its := lost) hb) ?_
  refine Runs.lift (fun r => ?_)
  dsimp only
  rw [List.take_length, writeAt, resize_length, if_pos (by omega)]
  simp [resize_length]

theorem localizeLoop_runs {chunk : Nat} (hc : 0 < chunk) {idx : Fin P → Int → Int} {lost : Fin P → List Int} (roots : List (Fin P))
    {received : Fin P → List Int} {subs res : Fin P → List (Sub K D)} (h : localizeRoots chunk idx lost roots subs = .ok res) :
    Runs (fun r => localizeLoop chunk (idx r) r (lost r) roots (received r) (subs r)) res := by
  induction roots generalizing received subs with
  | nil => cases h; exact Runs.ret _
  | cons root roots ih =>
    rw [localizeRoots, C12_bcast chunk hc root (fun r => (lost r).length) (lost root) (le_refl _), Outcome.bind_ok] at h
    obtain ⟨subs', h1, h⟩ := bind_eq_ok h
    simp only [localizeLoop]
    refine Runs.bind (receiveTracks_runs hc) ?_
    refine Runs.lift_bind (a := subs') (fun r => ?_) (ih h)
    have := allRanks_inv h1 r
    rw [List.take_length] at this
    unfold levelUpUnless
    by_cases e : r = root
    · rw [if_pos e] at this
      simp only [e, decide_true, if_true]
      rw [← e]
      exact this
    · rw [if_neg e] at this
      simp only [e, decide_false]
      exact this

theorem nest_runs {chunk : Nat} (hc : 0 < chunk) {sort : List (Int × Int) → List (Int × Int)} {bsearch : Int → List (Int × Int) → Option (Int × Int)}
    {order : Fin P → List Nat} {groups : Fin P → List (List Nat)} {field : Fin P → List Nat} {subs : Fin P → List (Sub K D)}
    {res : Fin P → List (Sub K D) × List (List Nat)} (h : nestSubhalos chunk sort bsearch order groups field subs = .ok res) :
    Runs (fun r => nest chunk sort bsearch r (order r) (groups r) (field r) (subs r)) res := by
  unfold nestSubhalos at h
  obtain ⟨loc, h1, h⟩ := bind_eq_ok h
  unfold nest localize
  refine Runs.bind (localizeLoop_runs hc (List.finRange P) h1) ?_
  exact Runs.lift (fun r => allRanks_inv h r)

theorem register_runs {subs res : Fin P → List (Sub K D)} {nBirth : Fin P → Nat} (h : registerNewTracks subs nBirth = .ok res) :
    Runs (fun r => register (subs r) (nBirth r)) res := by
  unfold registerNewTracks at h
  obtain ⟨loc, h1, h⟩ := bind_eq_ok h
  unfold register
  refine Runs.lift_bind (fun r => allRanks_inv h1 r) ?_
  refine Runs.bind (runs_allreduce1 (x := fun r => (loc r).2) 0 Nat.zero_add) ?_
  refine Runs.bind (runs_scan1 (x := fun r => (loc r).1.length - (loc r).2) 0 Nat.zero_add) ?_
  refine Runs.lift (fun r => ?_)
  have := allRanks_inv h r
  rw [scanSum] at this
  rw [foldl_add_sum, foldl_add_sum]
  exact this

theorem update_runs [LE K] [DecidableLE K] {sort : List (Sub K D) → List Nat → List Nat} {snap : Int} {haloIds : Fin P → List Int}
    {nBirth : Fin P → Nat} {heads : Fin P → List (List Nat)} {subs res : Fin P → List (Sub K D)}
    (h : updateTracks sort snap haloIds nBirth heads subs = .ok res) :
    Runs (fun r => update sort snap (haloIds r) (nBirth r) (heads r) (subs r)) res := by
  unfold updateTracks at h
  obtain ⟨reg, h1, h⟩ := bind_eq_ok h
  unfold update
  exact (register_runs h1).bind (Runs.lift (fun r => allRanks_inv h r))

end HBT.Spmd
