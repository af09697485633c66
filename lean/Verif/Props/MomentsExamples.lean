import Verif.Props.Kinematics
import Mathlib.Tactic.NormNum
/-!
# Concrete cases for C54–C56
-/
namespace HBT.Props
open HBT HBT.Model HBT.Spec

/-- Two threads: the second starts first. -/
def lateFirst {α : Type} (l : List α) : List (List α) := [l.drop 2, l.take 2]

theorem lateFirst_split {α : Type} : ParallelSplit (lateFirst (α := α)) where
  perm l := by
    simp only [lateFirst, List.flatten_cons, List.flatten_nil, List.append_nil]
    exact List.perm_append_comm.trans (by rw [List.take_append_drop])

/-- 120 particles of types 0, 1, 4 and masses 1, 2. -/
def gasAndStars : List (TypedParticle ℚ) :=
  (List.range 120).map (fun i => ⟨i, if i % 3 = 0 then 0 else if i % 3 = 1 then 1 else 4, if i % 2 = 0 then 1 else 2⟩)

/-- C54: 110 of them bound, counted by two threads. -/
example : ∃ tab, countParticleTypes lateFirst 110 gasAndStars = .ok tab ∧ (tab 0).1 = 37 ∧ (tab 4).1 = 36 ∧
    (tab 5).1 = 0 ∧ (tab 0).2 = 55 ∧ ∑ t, (tab t).1 = 110 := by
  obtain ⟨tab, h, h1, h2, -⟩ := C54_types lateFirst lateFirst_split 110 gasAndStars (by decide +kernel) (by decide +kernel)
    (by decide +kernel) _ rfl
  refine ⟨tab, h, ?_, ?_, ?_, ?_, h2⟩ <;> rw [h1] <;> decide +kernel

/-- C54_bad_type: type 6 among three particles. -/
example : countParticleTypes lateFirst 2 ([⟨1, 1, 1⟩, ⟨2, 6, 1⟩, ⟨3, 0, 1⟩] : List (TypedParticle ℚ)) = .ub :=
  C54_bad_type _ lateFirst_split _ _ ⟨⟨2, 6, 1⟩, by simp, by decide, by decide⟩

/-- C54_null_finding: one consumed particle among 3, and among 101. -/
example : (∃ tab, countParticleTypes lateFirst 3 ([⟨7, 1, 1⟩, ⟨-1, 1, 1⟩, ⟨8, 1, 1⟩] : List (TypedParticle ℚ)) = .ok tab ∧
      (tab 1).1 = 2) ∧
    (∃ tab, countParticleTypes lateFirst 101 (⟨-1, 1, 1⟩ :: List.replicate 100 (⟨7, 1, 1⟩ : TypedParticle ℚ)) = .ok tab ∧
      (tab 1).1 = 101) := by
  constructor
  · obtain ⟨tab, h, h1, -⟩ := C54_null_finding lateFirst lateFirst_split 3
      ([⟨7, 1, 1⟩, ⟨-1, 1, 1⟩, ⟨8, 1, 1⟩] : List (TypedParticle ℚ)) (by decide) (by decide +kernel)
    exact ⟨tab, h, by rw [h1 (by decide)]; decide +kernel⟩
  · obtain ⟨tab, h, -, h1⟩ := C54_null_finding lateFirst lateFirst_split 101
      (⟨-1, 1, 1⟩ :: List.replicate 100 (⟨7, 1, 1⟩ : TypedParticle ℚ)) (by decide +kernel) (by decide +kernel)
    exact ⟨tab, h, by rw [h1 (by decide)]; decide +kernel⟩

/-- Four particles across the edge of a box of side 10. -/
def acrossEdge : List (BoxParticle ℚ) :=
  [⟨1, ![0, 5, 5], ![0, 0, 0]⟩, ⟨2, ![-1, 5, 5], ![1, 0, 0]⟩, ⟨3, ![1, 6, 5], ![0, 0, 0]⟩, ⟨1, ![0, 5, 7], ![0, 0, 0]⟩]

/-- C55_tensor: in the box, along the first axis: (2·1 + 3·1)/7. -/
example : ∃ T W, calculateShape lateFirst true 10 ![0, 5, 5] 7 (acrossEdge.map (BoxParticle.seen 10)) 4 = .ok (T, W) ∧
    along T ![1, 0, 0] = 5 / 7 := by
  have hl : acrossEdge.map (BoxParticle.seen (10 : ℚ)) = (1, fun j => ![0, 5, 5] j + ((![0, 0, 0] : Fin 3 → ℤ) j : ℚ) * 10) ::
      (acrossEdge.drop 1).map (BoxParticle.seen 10) := rfl
  have hc : (![0, 5, 5] : Fin 3 → ℚ) = (fun j => ![0, 5, 5] j + ((![0, 0, 0] : Fin 3 → ℤ) j : ℚ) * 10) := by
    funext j
    match j with
    | 0 | 1 | 2 => simp
  rw [hl, hc]
  obtain ⟨T, W, h, h1, -⟩ := C55_tensor lateFirst lateFirst_split true 10 (by norm_num) 7
    ((1, fun j => ![0, 5, 5] j + ((![0, 0, 0] : Fin 3 → ℤ) j : ℚ) * 10) : Weighted ℚ)
    ((acrossEdge.drop 1).map (BoxParticle.seen 10)) 4 (by decide) (by decide)
  refine ⟨T, W, h, ?_⟩
  rw [h1]
  decide +kernel

/-- C55_weighted, C55_periodic: the hypotheses hold for these particles in free space. -/
example : CompactIn 10 acrossEdge ∧ SeenInBox 10 acrossEdge ∧
    (∀ p ∈ ((acrossEdge.map BoxParticle.free).drop 1).take 3,
      dot (offsetFrom false 10 (![0, 5, 5] : Fin 3 → ℚ) p.2) (offsetFrom false 10 ![0, 5, 5] p.2) ≠ 0) ∧
    (∀ p ∈ acrossEdge.map BoxParticle.free, 0 < p.1) ∧
    7 = (((acrossEdge.map BoxParticle.free).take 4).map (·.1)).sum := by
  simp only [CompactIn, SeenInBox]
  decide +kernel

/-- C55_coincident_finding: the third particle has the position of the first. -/
example : ∃ T, calculateShape lateFirst false 10 ![1, 1, 1] 3
    ([(1, ![1, 1, 1]), (1, ![2, 1, 1]), (1, ![1, 1, 1])] : List (Weighted ℚ)) 3 = .ok (T, ⊤) :=
  C55_coincident_finding lateFirst lateFirst_split false 10 (by norm_num) 3 (1, ![1, 1, 1]) _ 3 (by decide) (by decide)
    ⟨(1, ![1, 1, 1]), by decide +kernel, rfl⟩

/-- Two bodies of masses 1 and 2 turning about their centre of mass, which moves. -/
def turning : List (EnergyParticle ℚ) :=
  [⟨1, ![2, 0, 0], ![5, 2, 0], -1⟩, ⟨2, ![-1, 0, 0], ![5, -1, 0], -2⟩]

/-- Their centre of mass as reference, with Hubble flow. -/
def comFrame : KinFrame ℚ := ⟨false, 10, 1, 3, ![0, 0, 0], ![5, 0, 0]⟩

/-- C56_averages: angular momentum (1·2·2 + 2·1·1)/3 = 2 about the third axis. -/
example : ∃ r, averageKinematics lateFirst comFrame turning 2 = .ok r ∧ r.angular 2 = 2 ∧ r.kinetic = 10 := by
  obtain ⟨r, h, h1, -, h3⟩ := C56_averages lateFirst lateFirst_split comFrame turning 2 (by decide) (by decide)
  refine ⟨r, h, ?_, ?_⟩
  · rw [h3]; decide +kernel
  · rw [h1]; decide +kernel

/-- C56_centre and C56_koenig: the hypotheses hold for them. -/
example : (∀ j, massAverage EnergyParticle.mass (fun p => physOffset comFrame p.pos j) (turning.take 2) = 0) ∧
    (∀ j, massAverage EnergyParticle.mass (fun p => physVelocity comFrame p j) (turning.take 2) = 0) ∧
    (∀ p ∈ turning, 0 < p.mass) := by
  decide +kernel

/-- C56_potential: energies that are kinetic plus potential. -/
example : ∃ pot : EnergyParticle ℚ → ℚ, ∀ p ∈ turning,
    p.energy = dot (physVelocity comFrame p) (physVelocity comFrame p) / 2 + pot p :=
  ⟨fun p => p.energy - dot (physVelocity comFrame p) (physVelocity comFrame p) / 2, fun p _ => by ring⟩

end HBT.Props
