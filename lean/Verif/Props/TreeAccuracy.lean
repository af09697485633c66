import Verif.Lemmas.TreeAccuracy
import Verif.Props.OctTree
import Mathlib.Analysis.Real.Sqrt
/-!
# C77: the potential of the tree is close to the direct sum over all particles

With opening angle `θ` (`angle2 = θ²`) the relative error is at most `√3 θ`, and 2 in 10¹² for the constants of the spline, which the code
writes with 12 digits. Statements are for any `s < 1` with `3 θ² ≤ s²`.
-/
namespace HBT.Props
open HBT.Model HBT.Spec HBT.OT HBT.Spl
section Field
variable {K : Type} [Field K] [LinearOrder K] [IsStrictOrderedRing K] [FloorRing K]

/-- `pot` is the potential (negative) of bodies whose direct sum is `phi`, up to the relative error `s` of the tree and 2 in 10¹² of the constants. -/
def PotentialNear (s phi pot : K) : Prop := (1 - s) * (1 - 2 / 10 ^ 12) * phi ≤ -pot ∧ -pot ≤ (1 + s) * (1 + 2 / 10 ^ 12) * phi

theorem near_scale {s phi pot G scale : K} (hG : 0 ≤ G) (ha : 0 < scale) (h : PotentialNear s phi pot) : PotentialNear s (phi * G / scale) (pot * G / scale) := by
  have hg : 0 ≤ G / scale := div_nonneg hG ha.le
  obtain ⟨h1, h2⟩ := h
  have e1 : -(pot * G / scale) = -pot * (G / scale) := by ring
  have e2 : ∀ c : K, c * (phi * G / scale) = c * phi * (G / scale) := fun c => by ring
  unfold PotentialNear
  rw [e1, e2, e2]
  exact ⟨mul_le_mul_of_nonneg_right h1 hg, mul_le_mul_of_nonneg_right h2 hg⟩

theorem clustering_near {sqrt : K → K} (hr : IsRoot sqrt) {soft : K} (hsoft : 0 < soft) {periodic : Bool} {L angle2 s : K} (hs0 : 0 ≤ s) (hs1 : s < 1)
    (hs : 3 * angle2 ≤ s ^ 2) {m : Nat → K} {x : Nat → Fin 3 → K} {target : Fin 3 → K} {d2 : Nat → K} {l : List Nat} {cls : List (Cluster K)}
    (h : Clustering periodic L angle2 m x target l cls) (hl : ∀ p ∈ l, 0 < m p ∧ Separation periodic L (x p) target (d2 p)) :
    PotentialNear s (directSum (28 / 10 * soft) m (fun p => sqrt (d2 p)) l) (clusterPot sqrt soft m cls) := by
  have := clusters_close hr hsoft hs0 hs1 hs (m := m) (x := x) (target := target) (d2 := d2) (cls := cls) (fun cl hcl p hp =>
    hl p (h.parts.mem_iff.1 (List.mem_flatten.2 ⟨_, List.mem_map.2 ⟨cl, hcl, rfl⟩, hp⟩))) h.centre h.sep h.allowed
  have e : directSum (28 / 10 * soft) m (fun p => sqrt (d2 p)) (cls.map Cluster.members).flatten = directSum (28 / 10 * soft) m (fun p => sqrt (d2 p)) l :=
    (h.parts.map _).sum_eq
  rw [e] at this
  exact this

/-- C77: the potential of the tree at any point is that of the direct sum over all its particles, with the softened potential of each at its distance
(nearest image, if periodic), up to the relative error `s` of an opening angle `θ` with `√3 θ ≤ s`. -/
theorem C77_potential (res resHalf : K) (hres : res = 2 * resHalf) (rand : Nat → Nat) (fuel : Nat) (old : List Int)
    (pts : List (Fin 3 → K)) (mass : List K) (num N : Nat) (x : Nat → Fin 3 → K) (m : Nat → K) (hc : Content pts num N x)
    (hm : Masses mass N m) (t : Tree K K) (ht : buildTree (gravityRule pts mass) res resHalf rand fuel old pts num = .ok t)
    (periodic : Bool) (L : K) (sqrt : K → K) (hr : IsRoot sqrt) (soft : K) (hsoft : 0 < soft) (angle2 s : K) (hs0 : 0 ≤ s) (hs1 : s < 1) (hs : 3 * angle2 ≤ s ^ 2)
    (G scale : K) (hG : 0 ≤ G) (ha : 0 < scale) (target : Fin 3 → K)
    (hbox : periodic = true → 0 < L ∧ InBox L target ∧ ∀ p < N, InBox L (x p))
    (d2 : Nat → K) (hd : ∀ p < N, Separation periodic L (x p) target (d2 p)) :
    ∃ pot, evaluatePotential periodic L sqrt soft angle2 G scale pts mass N t target 0 = .ok pot ∧
      PotentialNear s (directSum (28 / 10 * soft) m (fun p => sqrt (d2 p)) (List.range N) * G / scale) pot := by
  obtain ⟨cls, hcl, e⟩ := C41_potential res resHalf hres rand fuel old pts mass num N x m hc hm t ht periodic L sqrt soft angle2 G scale target hbox
  refine ⟨_, e, near_scale hG ha ?_⟩
  exact clustering_near hr hsoft hs0 hs1 hs hcl (fun p hp => ⟨(hm p (List.mem_range.1 hp)).2, hd p (List.mem_range.1 hp)⟩)

theorem root_zero {sqrt : K → K} (hr : IsRoot sqrt) : sqrt 0 = 0 := by
  obtain ⟨_, h⟩ := hr 0 le_rfl
  exact mul_self_eq_zero.1 h

theorem angle_lt {s angle2 : K} (hs0 : 0 ≤ s) (hs1 : s < 1) (hs : 3 * angle2 ≤ s ^ 2) : 3 * angle2 < 1 :=
  lt_of_le_of_lt hs (pow_lt_one₀ hs0 hs1 (by norm_num))

/-- C77: at a particle of the tree, asked for with its own mass, the same for the direct sum over all other particles. -/
theorem C77_at_particle (res resHalf : K) (hres : res = 2 * resHalf) (rand : Nat → Nat) (fuel : Nat) (old : List Int)
    (pts : List (Fin 3 → K)) (mass : List K) (num N : Nat) (x : Nat → Fin 3 → K) (m : Nat → K) (hc : Content pts num N x)
    (hm : Masses mass N m) (t : Tree K K) (ht : buildTree (gravityRule pts mass) res resHalf rand fuel old pts num = .ok t)
    (periodic : Bool) (L : K) (sqrt : K → K) (hr : IsRoot sqrt) (soft : K) (hsoft : 0 < soft) (angle2 s : K) (h0 : 0 ≤ angle2) (hs0 : 0 ≤ s) (hs1 : s < 1)
    (hs : 3 * angle2 ≤ s ^ 2) (G scale : K) (hG : 0 ≤ G) (ha : 0 < scale) (i : Nat) (hi : i < N)
    (hbox : periodic = true → 0 < L ∧ ∀ p < N, InBox L (x p))
    (d2 : Nat → K) (hd : ∀ p < N, p ≠ i → Separation periodic L (x p) (x i) (d2 p)) :
    ∃ pot, evaluatePotential periodic L sqrt soft angle2 G scale pts mass N t (x i) (m i) = .ok pot ∧
      PotentialNear s (directSum (28 / 10 * soft) m (fun p => sqrt (d2 p)) ((List.range N).erase i) * G / scale) pot := by
  obtain ⟨cls, hcl, e⟩ := potential_self hres hc hm ht periodic L sqrt soft angle2 G scale i hi hbox h0 (angle_lt hs0 hs1 hs) (root_zero hr) hsoft
  refine ⟨_, e, near_scale hG ha ?_⟩
  refine clustering_near hr hsoft hs0 hs1 hs hcl (fun p hp => ?_)
  obtain ⟨hne, hmem⟩ := (List.Nodup.mem_erase_iff List.nodup_range).1 hp
  exact ⟨(hm p (List.mem_range.1 hmem)).2, hd p (List.mem_range.1 hmem) hne⟩

/-- C77: the binding energy of a particle of the tree is the exact one (kinetic energy relative to the reference, Hubble flow included, plus potential of
the direct sum) up to an error of `s` times the potential energy. A particle whose exact energy is further from zero than that is judged as
with the exact energy. -/
theorem C77_binding_energy (res resHalf : K) (hres : res = 2 * resHalf) (rand : Nat → Nat) (fuel : Nat) (old : List Int)
    (pts : List (Fin 3 → K)) (mass : List K) (num N : Nat) (x : Nat → Fin 3 → K) (m : Nat → K) (hc : Content pts num N x)
    (hm : Masses mass N m) (t : Tree K K) (ht : buildTree (gravityRule pts mass) res resHalf rand fuel old pts num = .ok t)
    (periodic : Bool) (L : K) (sqrt : K → K) (hr : IsRoot sqrt) (soft : K) (hsoft : 0 < soft) (angle2 s : K) (h0 : 0 ≤ angle2) (hs0 : 0 ≤ s) (hs1 : s < 1)
    (hs : 3 * angle2 ≤ s ^ 2) (G scale hz : K) (hG : 0 ≤ G) (ha : 0 < scale) (i : Nat) (hi : i < N) (vel refPos refVel : Fin 3 → K)
    (hbox : periodic = true → 0 < L ∧ InBox L refPos ∧ ∀ p < N, InBox L (x p))
    (d2 : Nat → K) (hd : ∀ p < N, p ≠ i → Separation periodic L (x p) (x i) (d2 p)) :
    ∃ sh energy, bindingEnergy periodic L sqrt soft angle2 G scale hz pts mass N t (x i) vel refPos refVel (m i) = .ok energy ∧
      (if periodic then (∃ k, sh = image L k (x i)) ∧ Separation periodic L (x i) refPos (sqDist sh refPos) else sh = x i) ∧
      let phi := directSum (28 / 10 * soft) m (fun p => sqrt (d2 p)) ((List.range N).erase i) * G / scale
      let exact := ((vel 0 - refVel 0 + hz * scale * (sh 0 - refPos 0)) ^ 2 + (vel 1 - refVel 1 + hz * scale * (sh 1 - refPos 1)) ^ 2 +
          (vel 2 - refVel 2 + hz * scale * (sh 2 - refPos 2)) ^ 2) / 2 - phi
      |energy - exact| ≤ ((1 + s) * (1 + 2 / 10 ^ 12) - 1) * phi := by
  obtain ⟨cls, sh, hcl, hsh, e⟩ := C41_binding_energy res resHalf hres rand fuel old pts mass num N x m hc hm t ht periodic L sqrt soft angle2 G scale hz i hi
    vel refPos refVel hbox h0 (angle_lt hs0 hs1 hs) (root_zero hr) hsoft
  refine ⟨sh, _, e, hsh, ?_⟩
  have hl : ∀ p ∈ (List.range N).erase i, 0 < m p ∧ Separation periodic L (x p) (x i) (d2 p) := by
    intro p hp
    obtain ⟨hne, hmem⟩ := (List.Nodup.mem_erase_iff List.nodup_range).1 hp
    exact ⟨(hm p (List.mem_range.1 hmem)).2, hd p (List.mem_range.1 hmem) hne⟩
  obtain ⟨n1, n2⟩ := near_scale hG ha (clustering_near hr hsoft hs0 hs1 hs hcl hl)
  have hphi : 0 ≤ directSum (28 / 10 * soft) m (fun p => sqrt (d2 p)) ((List.range N).erase i) * G / scale := by
    refine div_nonneg (mul_nonneg (List.sum_nonneg (fun a ha' => ?_)) hG) ha.le
    obtain ⟨p, hp, rfl⟩ := List.mem_map.1 ha'
    have hh : (0 : K) < 28 / 10 * soft := by positivity
    have pos : ∀ a b : Fin 3 → K, 0 ≤ sqDist a b := fun a b => by unfold sqDist; positivity
    have hd0 : 0 ≤ d2 p := by
      have hsep := (hl p hp).2
      unfold Separation at hsep
      cases periodic with
      | false => simp only [Bool.false_eq_true, if_false] at hsep; rw [hsep]; exact pos _ _
      | true => simp only [if_true] at hsep; obtain ⟨⟨k, hk⟩, _⟩ := hsep; rw [hk]; exact pos _ _
    exact div_nonneg (mul_nonneg (hl p hp).1.le (kernel_pos (div_nonneg (hr _ hd0).1 hh.le)).le) hh.le
  simp only
  have en : (cls.map (fun cl => softPotential sqrt soft (totalMass m cl.members) cl.sep2)).sum = clusterPot sqrt soft m cls := rfl
  rw [en]
  generalize directSum (28 / 10 * soft) m (fun p => sqrt (d2 p)) ((List.range N).erase i) * G / scale = phi at *
  generalize clusterPot sqrt soft m cls * G / scale = pot at *
  rw [abs_le]
  constructor
  · linarith
  · have : (0 : K) ≤ 2 * s * (2 / 10 ^ 12) * phi + 0 := by positivity
    nlinarith

end Field

/-! ## Non-vacuity -/

/-- The root of the reals. -/
theorem real_root : IsRoot Real.sqrt := fun x h => ⟨Real.sqrt_nonneg x, Real.mul_self_sqrt h⟩

/-- The default opening angle of the program, 0.45, gives errors below 78 %; the angle 0.1 gives 17.4 %. -/
example : 3 * ((45 / 100) ^ 2 : ℚ) ≤ (78 / 100) ^ 2 ∧ 3 * ((1 / 10) ^ 2 : ℚ) ≤ (174 / 1000) ^ 2 := by norm_num

/-- Three bodies, two of them at the same place. -/
noncomputable def threePos (p : Nat) : Fin 3 → ℝ := if p = 2 then fun _ => 2 else fun _ => 0

theorem real_low (m : Nat) : pieceCentre (0 : ℝ) 1 1 m = 1 / 2 ^ m := by
  induction m with
  | zero => simp [pieceCentre]
  | succ m ih =>
    rw [pieceCentre, ih, if_neg (by simp), pow_succ]
    field_simp; norm_num

theorem real_high (m : Nat) : pieceCentre (2 : ℝ) 1 1 m = 2 - 1 / 2 ^ m := by
  induction m with
  | zero => norm_num [pieceCentre]
  | succ m ih =>
    rw [pieceCentre, ih, if_pos (by simp), pow_succ]
    field_simp; ring

/-- Their tree over the reals is built, and its potential seen from (7, 2, 1), with the default opening angle of 0.45, meets C77. -/
example : ∃ fuel t pot, buildTree (gravityRule [threePos 0, threePos 1, threePos 2] [1, 2, 3]) 1 (1 / 2) (fun _ => 3) fuel [] [threePos 0, threePos 1, threePos 2] 0 = .ok t ∧
    evaluatePotential false 0 Real.sqrt (1 / 10) ((45 / 100) ^ 2) 43 1 [threePos 0, threePos 1, threePos 2] [1, 2, 3] 3 t ![7, 2, 1] 0 = .ok pot ∧
    PotentialNear (78 / 100) (directSum (28 / 10 * (1 / 10)) (fun p => (p : ℝ) + 1) (fun p => Real.sqrt (sqDist (threePos p) ![7, 2, 1])) (List.range 3) * 43 / 1) pot := by
  have hc : Content [threePos 0, threePos 1, threePos 2] 0 3 threePos := by
    refine ⟨by simp, by simp, rfl, ?_⟩
    intro p hp
    interval_cases p <;> rfl
  have hm : Masses [1, 2, 3] 3 (fun p => (p : ℝ) + 1) := by
    intro p hp
    interval_cases p <;> norm_num
  have hroot : RootCube threePos 3 1 (fun _ => 1) := by
    refine ⟨fun _ => 0, fun _ => 2, fun d => ⟨⟨0, by norm_num, rfl⟩, ⟨2, by norm_num, rfl⟩, fun p _ => ?_⟩, fun d => by norm_num,
      fun d => by norm_num, 0, by norm_num⟩
    unfold threePos
    split_ifs <;> norm_num
  obtain ⟨fuel, t, ht⟩ := C41_gravity_ends 1 (1 / 2) (by norm_num) (by norm_num) (fun _ => 3) [] _ _ 0 3 threePos _ hc hm 1 (fun _ => 1) hroot (by
    rintro p - ⟨i, j, h⟩
    have := h 0
    unfold octDigit threePos at this
    split_ifs at this <;> simp [real_low, real_high] at this)
  obtain ⟨pot, e, hn⟩ := C77_potential 1 (1 / 2) (by norm_num) (fun _ => 3) fuel [] _ _ 0 3 threePos _ hc hm t ht false 0 Real.sqrt real_root (1 / 10) (by norm_num)
    ((45 / 100) ^ 2) (78 / 100) (by norm_num) (by norm_num) (by norm_num) 43 1 (by norm_num) (by norm_num) ![7, 2, 1] (fun h => by simp at h)
    (fun p => sqDist (threePos p) ![7, 2, 1]) (fun p _ => by simp [Separation])
  exact ⟨fuel, t, pot, ht, e, hn⟩

end HBT.Props
