import Verif.Props.Inclusive
import Verif.Props.RunExample
/-!
# A concrete run with inclusive masses

`a` falls into the halo of `b`, which gets all particles of the halo, and sinks into it in the next snapshot. The run meets the
hypotheses of the theorems of `Props/Inclusive`, and shows what does not hold.
-/
namespace HBT.Props
open HBT HBT.Model HBT.Spec HBT.Spec.Forest

def iCoord (s : Sub ℚ Nat) : Nat := s.nbound

/-- The snapshot with the states that the model computes. -/
def iCompute (par : Params ℚ Nat) (x : Inputs ℚ Nat Int 2) : Snapshot ℚ Nat Int 2 :=
  let nested := okOr (nestSubhalos par.chunk par.sortKeys par.bsearch x.order x.groups x.field (fun r => x.old r ++ x.new r)) (fun _ => ([], []))
  let masked : RS := fun r => (nested r).1
  let refined : RS := fun r => okOr (refineInclusive par.cfg (x.env r) x.snap (x.each r) (masked r)) []
  let merged : RS := fun r => okOr (mergeSubhalosInclusive par.cfg (x.env' r) par.mass par.merging (x.sunk r) x.snap ((refined r).length + 1)
    (x.mergeOrder r) (x.each r) (x.groups r) (nested r).2 (refined r)) []
  let out := okOr (updateTracksInclusive iCoord par.sortMass x.snap x.haloIds (fun r => (x.new r).length) (fun r => (nested r).2) merged) (fun _ => [])
  { toInputs := x, nested := nested, masked := masked, refined := refined, merged := merged, out := out }

theorem iComputed {par : Params ℚ Nat} {d : Snapshot ℚ Nat Int 2} (e : d = iCompute par d.toInputs)
    (h1 : isOk (nestSubhalos par.chunk par.sortKeys par.bsearch d.order d.groups d.field (fun r => d.old r ++ d.new r)) = true)
    (h3 : ∀ r, isOk (refineInclusive par.cfg (d.env r) d.snap (d.each r) (d.masked r)) = true)
    (h4 : ∀ r, isOk (mergeSubhalosInclusive par.cfg (d.env' r) par.mass par.merging (d.sunk r) d.snap ((d.refined r).length + 1) (d.mergeOrder r)
      (d.each r) (d.groups r) (d.nested r).2 (d.refined r)) = true)
    (h5 : isOk (updateTracksInclusive iCoord par.sortMass d.snap d.haloIds (fun r => (d.new r).length) (fun r => (d.nested r).2) d.merged) = true) :
    ComputedInclusive iCoord par d := by
  rw [e] at h1 h3 h4 h5 ⊢
  exact ⟨ok_okOr _ h1, fun _ => rfl, fun r => ok_okOr _ (h3 r), fun r => ok_okOr _ (h4 r), ok_okOr _ h5⟩

/-- Births: `a` and `b` on the first process. -/
def iX0 : Inputs ℚ Nat Int 2 :=
  { snap := 0, moved := rNo, old := rNo
    new := pick [rBorn 0 0 [1, 2, 3], rBorn 0 1 [11, 12, 13, 14]] []
    haloIds := pick [100, 101] [], groups := pick [[], []] [], field := pick [] [], order := pick [1, 0] []
    maskOrder := pick [1, 0] [], hostOrder := pick [0, 1] [], lone := pick [1, 0] [], mergeOrder := pick [1, 0] []
    each := pick [1, 0] []
    env := fun _ _ => rEnv (fun k => k - 9), env' := fun _ _ => rEnv (fun _ => -1), sunk := fun _ _ _ => false }

def iD0 := iCompute (rPar false) iX0

/-- All particles of a halo. -/
def iFed (h : Int) (ps : List (Particle Nat)) (s : Sub ℚ Nat) : Sub ℚ Nat := { s with hostHaloId := h, particles := ps, nbound := ps.length }

/-- `a` is found in the halo of `b`; the particle 99 has mass 7. -/
def iX1 : Inputs ℚ Nat Int 2 :=
  { snap := 1, moved := iD0.out
    old := pick ((iD0.out 0).zipWith (fun s f => f s) [rIn 0, iFed 0 [⟨11, 1⟩, ⟨1, 1⟩, ⟨2, 1⟩, ⟨3, 1⟩, ⟨99, 7⟩]]) []
    new := rNo
    haloIds := pick [200] [], groups := pick [[1, 0]] [], field := pick [] [], order := pick [0, 1] []
    maskOrder := pick [0] [], hostOrder := pick [0] [], lone := pick [] [], mergeOrder := pick [0] []
    each := pick [1, 0] []
    env := fun _ _ => rEnv (fun k => if k = 4 then 1 else k - 9), env' := fun _ _ => rEnv (fun _ => -1)
    sunk := fun _ _ _ => false }

def iD1 := iCompute (rPar false) iX1

/-- `a` sinks into `b`. -/
def iX2 : Inputs ℚ Nat Int 2 :=
  { snap := 2, moved := pick [] (iD1.out 0), old := pick [] ((iD1.out 0).map (rIn 0))
    new := rNo
    haloIds := pick [] [300], groups := pick [] [[1, 0]], field := pick [] [], order := pick [] [0, 1]
    maskOrder := pick [] [0], hostOrder := pick [] [0], lone := pick [] [], mergeOrder := pick [] [0]
    each := pick [] [1, 0]
    env := fun _ _ => rEnv (fun k => k - 9), env' := fun _ _ => rEnv (fun k => k - 9)
    sunk := fun _ i h => i = 0 ∧ h = 1 }

def iD2 := iCompute (rPar false) iX2

/-- A track keeps its number of particles, or gets all particles of its halo. -/
theorem carried_of_fed {b : Bool} {l l' : List (Sub ℚ Nat)} (h : l.map bare = l'.map bare)
    (h' : ∀ i < l.length, ((l'[i]?).map Sub.nbound = (l[i]?).map Sub.nbound ∧
        (l'[i]?).map (fun s => s.particles.length) = (l[i]?).map (fun s => s.particles.length)) ∨
      (l'[i]?).map Sub.nbound = (l'[i]?).map (fun s => s.particles.length)) :
    List.Forall₂ (Carried b) l l' := by
  have hl : l.length = l'.length := by simpa using congrArg List.length h
  refine List.forall₂_iff_get.2 ⟨hl, fun i hi hi' => ?_⟩
  simp only [List.get_eq_getElem]
  have e : bare l[i] = bare l'[i] := by
    have := congrArg (fun m : List (Sub ℚ Nat) => m[i]?) h
    simpa [List.getElem?_map, List.getElem?_eq_getElem hi, List.getElem?_eq_getElem hi'] using this
  have e' := h' i hi
  simp only [List.getElem?_eq_getElem hi, List.getElem?_eq_getElem hi', Option.map_some, Option.some.injEq] at e'
  refine ⟨?_, ?_⟩
  · generalize l[i] = s at e
    generalize l'[i] = s' at e
    cases s
    cases s'
    simp only [bare, Sub.mk.injEq] at e ⊢
    simp [e]
  · rcases e' with e' | e'
    · exact Or.inl e'
    · exact Or.inr (Or.inl e')

theorem iRun0 : RunInclusive iCoord (rPar false) [⟨2, iD0⟩] :=
  .next [] iD0 .start
    (rInputs_ok (prev := (latest ([] : List (Σ P, Snapshot ℚ Nat Int P))).2) (x := iD0.toInputs) (by decide +kernel) (by decide +kernel) (by decide +kernel) (by decide +kernel) (by decide +kernel) (by decide +kernel)
      (by decide +kernel) (by decide +kernel) (by decide +kernel) (by decide +kernel) (by decide +kernel)
      (fun r => carried_of_fed (by revert r; decide +kernel) (by revert r; decide +kernel)) (by decide +kernel) (by decide +kernel)
      (fun _ _ => ⟨_, _, rfl, rfl⟩))
    (fun _ h => by cases h)
    (iComputed rfl (by decide +kernel) (by decide +kernel) (by decide +kernel) (by decide +kernel))

theorem iRun1 : RunInclusive iCoord (rPar false) [⟨2, iD1⟩, ⟨2, iD0⟩] :=
  .next _ iD1 iRun0
    (rInputs_ok (by decide +kernel) (by decide +kernel) (by decide +kernel) (by decide +kernel) (by decide +kernel) (by decide +kernel)
      (by decide +kernel) (by decide +kernel) (by decide +kernel) (by decide +kernel) (by decide +kernel)
      (fun r => carried_of_fed (by revert r; decide +kernel) (by revert r; decide +kernel)) (by decide +kernel) (by decide +kernel)
      (fun _ _ => ⟨_, _, rfl, rfl⟩))
    (by decide +kernel)
    (iComputed rfl (by decide +kernel) (by decide +kernel) (by decide +kernel) (by decide +kernel))

def iTr2 : List (Σ P, Snapshot ℚ Nat Int P) := [⟨2, iD2⟩, ⟨2, iD1⟩, ⟨2, iD0⟩]
theorem iLatest2 : latest iTr2 = ⟨2, iD2.out⟩ := rfl

theorem iRun2 : RunInclusive iCoord (rPar false) iTr2 :=
  .next _ iD2 iRun1
    (rInputs_ok (by decide +kernel) (by decide +kernel) (by decide +kernel) (by decide +kernel) (by decide +kernel) (by decide +kernel)
      (by decide +kernel) (by decide +kernel) (by decide +kernel) (by decide +kernel) (by decide +kernel)
      (fun r => carried_of_fed (by revert r; decide +kernel) (by revert r; decide +kernel)) (by decide +kernel) (by decide +kernel)
      (fun _ _ => ⟨_, _, rfl, rfl⟩))
    (by decide +kernel)
    (iComputed rfl (by decide +kernel) (by decide +kernel) (by decide +kernel) (by decide +kernel))

/-! ## What the run looks like -/

example : rShow (iD0.out 0) = [((0, 100, 0, []), 3, [2, 1, 3], -1, -1), ((1, 101, 0, []), 4, [12, 11, 13, 14], -1, -1)] := by decide +kernel
example : rShow (iD1.refined 0) = [((0, 0, 0, []), 3, [2, 1, 3], -1, -1), ((1, 0, 0, []), 4, [11, 1, 2, 3, 99], -1, -1)] := by decide +kernel
example : rShow (iD1.out 0) = [((0, 200, 1, []), 3, [1, 2, 3], -1, -1), ((1, 200, 0, [0]), 4, [99, 1, 2, 3, 11], -1, -1)] := by decide +kernel
example : rShow (iD2.out 1) = [((0, 300, 1, []), 1, [1], 2, 1), ((1, 300, 0, [0]), 5, [1, 99, 2, 3, 11], -1, -1)] := by decide +kernel

/-! ## The hypotheses of the theorems are met -/

/-- The next snapshot can be computed. -/
example : ∃! d : Snapshot ℚ Nat Int 2, d.toInputs = iX2 ∧ RunInclusive iCoord (rPar false) [⟨2, d⟩, ⟨2, iD1⟩, ⟨2, iD0⟩] := by
  refine C68_never_fails (rPar_ok _) iRun1 iX2 ?_ ?_
  · cases iRun2 with | next _ _ _ ok _ _ => exact ok
  · cases iRun2 with | next _ _ _ _ later _ => exact later

/-- `a` has been merged away; `b` has 5 bound particles. -/
example : ∃ s ∈ iD2.out 1, s.trackId = 0 ∧ s.nbound = 1 ∧ s.particles.length = 1 ∧ ¬ Alive s ∧ SomeMass (rPar false).mass s := by
  have hm : ∃ s ∈ iD2.out 1, s.trackId = 0 ∧ s.nbound = 1 := by decide +kernel
  obtain ⟨s, hs, h1, h2⟩ := hm
  have h := (C68_every_state (rPar_ok false) iRun2).2.2 s (mem_everyone.2 ⟨(1 : Fin 2), hs⟩)
  refine ⟨s, hs, h1, h2, ?_, ?_, h.2.2.2 rfl⟩
  · rcases h.2.1 with h3 | h3
    · have : (rPar false).cfg.minNum = 2 := rfl
      omega
    · omega
  · rw [h.2.2.1]
    unfold Resolved
    omega
example : Hierarchy (iD2.out 1) := (C68_every_state (rPar_ok false) iRun2).2.1 (1 : Fin 2)

/-- `b` is unbound from all particles of the halo, those of `a` included. -/
example : (iD1.masked 0).map (fun s => s.particles.map Particle.id) = [[2, 1, 3], [11, 1, 2, 3, 99]] ∧ ∃ w,
    unbindFull (rPar false).cfg (iD1.env 0 1) 1 ((iD1.masked 0)[1]'(by decide +kernel)) = .ok w :=
  ⟨by decide +kernel, by
    obtain ⟨w, h, _⟩ := (C68_unbound_alone (rPar_ok false) iRun1 0).2.2 1 _ (List.getElem?_eq_getElem _)
    exact ⟨w, h⟩⟩

/-- In the third snapshot somebody merges, and the sink gets nothing. -/
example : ∃ traps merges middle, MergingCore true 2 (rPar false).mass 2 (Contains (iD2.refined 1) [[1, 0]])
    (iX2.sunk 1) (iD2.refined 1) (iD2.merged 1) traps merges middle ∧
    ∀ (i : Nat) (s : Sub ℚ Nat), (iD2.refined 1)[i]? = some s → merges i = none → middle i = s.particles :=
  C68_merging (rPar_ok false) iRun2 1
example : (iD2.refined 1).map Sub.nbound = [3, 5] ∧ (iD2.merged 1).map Sub.nbound = [1, 5] := by decide +kernel
example (s : Sub ℚ Nat) (hs : s ∈ iD2.out 1) : ∃ u, (u ∈ iD2.old 1 ∧ u.trackId = s.trackId ∨ u ∈ iD2.new 1 ∧ s.snapBirth = 2) ∧
    ∃ left, (s.particles ++ left).Perm u.particles := C68_own_particles (rPar_ok false) iRun2 1 s hs

/-- The front of `b` in the second snapshot does not belong to `a`. -/
example : ∃ s ∈ iD1.out 0, s.trackId = 1 ∧ ∃ p, s.particles.head? = some p ∧ ¬ InSmaller (iD1.out 0) s p.id := by
  have hm : ∃ s ∈ iD1.out 0, s.trackId = 1 ∧ 1 < s.nbound ∧ s.hostHaloId ≠ nullHalo ∧ ∃ p ∈ s.particles,
      ¬ ∃ t ∈ iD1.out 0, t.hostHaloId = s.hostHaloId ∧ s.rank < t.rank ∧ 1 < t.nbound ∧ ∃ q ∈ t.particles, q.id = p.id := by decide +kernel
  obtain ⟨s, hs, h1, h2, h3, p, hp, h4⟩ := hm
  exact ⟨s, hs, h1, C68_front (rPar_ok false) iRun1 0 s hs h2 h3 ⟨p, hp, h4⟩⟩

/-- Track 0 had its largest mass in the second snapshot, died in the third. -/
example : ∃ s ∈ iD2.out 1, s.trackId = 0 ∧ s.snapMaxMass = 1 ∧ s.lastMaxMass = 3 ∧ s.snapDeath = 2 ∧
    Recorded (visits (ends iTr2) s.trackId) s ∧ DeathMark (visits (checks iTr2) s.trackId) s := by
  have hm : ∃ s ∈ iD2.out 1, s.trackId = 0 ∧ s.snapMaxMass = 1 ∧ s.lastMaxMass = 3 ∧ s.snapDeath = 2 := by decide +kernel
  obtain ⟨s, hs, h1, h2, h3, h4⟩ := hm
  have hs0 : s ∈ everyone iD2.out := mem_everyone.2 ⟨1, hs⟩
  have hs' : s ∈ everyone (latest iTr2).2 := by rw [iLatest2]; dsimp only; exact hs0
  exact ⟨s, hs, h1, h2, h3, h4, C68_history (rPar_ok false) nonnegSums_exact (fun x => by simp [rPar]) iRun2 s hs', (C68_marks (rPar_ok false) iRun2 s hs').2.1⟩

/-! ## What does not hold -/

/-- C68, what does not hold: that the bound particles come first and have the mass of the subhalo. In the second snapshot `b` binds the particles 11, 1, 2, 3, of
which 11 is the most bound one and belongs to no other subhalo, but not 99, and yet 99 ends up at the front, and 11 among the unbound ones; the recorded
mass is not that of the first `Nbound` particles. -/
theorem C68_front_unbound : (rPar false).Ok ∧ RunInclusive iCoord (rPar false) [⟨2, iD1⟩, ⟨2, iD0⟩] ∧
    ∃ (i : Nat) (s s' : Sub ℚ Nat), (iD1.refined 0)[i]? = some s ∧ (iD1.out 0)[i]? = some s' ∧ Resolved s' ∧
      (∃ p, s'.particles.head? = some p ∧ p.id ∉ boundIds s) ∧
      (∃ p, s.particles.head? = some p ∧ p.id ∉ boundIds s' ∧ ¬ InSmaller (iD1.out 0) s' p.id) ∧ ¬ BoundMass (rPar false).mass s' := by
  refine ⟨rPar_ok _, iRun1, 1, (iD1.refined 0)[1]'(by decide +kernel), (iD1.out 0)[1]'(by decide +kernel), by rw [List.getElem?_eq_getElem], by rw [List.getElem?_eq_getElem], ?_⟩
  unfold Resolved InSmaller BoundMass Resolved
  refine ⟨by decide +kernel, ⟨⟨99, 7⟩, by decide +kernel, by decide +kernel⟩, ⟨⟨11, 1⟩, by decide +kernel, by decide +kernel, by decide +kernel⟩, ?_⟩
  decide +kernel

/-- C68, what does not hold: that particles are bound to one subhalo of a host only (this is intended: masses are inclusive). -/
theorem C68_shares : (rPar false).Ok ∧ RunInclusive iCoord (rPar false) [⟨2, iD1⟩, ⟨2, iD0⟩] ∧
    ∃ s ∈ iD1.out 0, ∃ t ∈ iD1.out 0, s.trackId ≠ t.trackId ∧ s.hostHaloId = t.hostHaloId ∧ s.hostHaloId ≠ nullHalo ∧
      1 < s.nbound ∧ 1 < t.nbound ∧ ∃ x ∈ boundIds s, x ∈ boundIds t :=
  ⟨rPar_ok _, iRun1, by decide +kernel⟩

end HBT.Props
