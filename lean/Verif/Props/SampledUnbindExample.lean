import Verif.Props.SampledUnbind
import Verif.Props.UnbindStale
import Verif.Lemmas.Rounding
/-!
# C80: an example for unbinding with samples
-/
namespace HBT.Props
open HBT HBT.Model HBT.Spec HBT.UE

/-- Samples of three bodies. -/
def sampledConfig : UnbindConfig := { lineConfig with maxSample := 3, refine := true }

def sampledRun : Outcome (Sub ℚ (Body ℚ) × Option (Frame ℚ) × List (Pass ℚ)) :=
  unbindBodies sampledConfig linePhysics lineSort List.reverse (fun _ => 0) 0 id 9 5 atRest (lineSub calmBodies)

/-- `SampleWithin` for gravity that is exact. -/
def sampleCheck (field : (Fin 3 → ℚ) → Weighted ℚ → ℚ) (slack : ℚ) (q : Nat) (l : List (Body ℚ)) : Bool :=
  (l.mapIdx (fun i b => decide (|sumOf field b.pos ((sampleOf q l).eraseIdx i) - sumOf field b.pos (l.eraseIdx i)| ≤ slack))).all id

theorem sampleCheck_within {field : (Fin 3 → ℚ) → Weighted ℚ → ℚ} {slack : ℚ} {q : Nat} {l : List (Body ℚ)} (h : sampleCheck field slack q l = true) :
    SampleWithin field (fun _ _ => 0) (fun _ => slack) q l := by
  intro i b hb
  unfold sampleCheck at h
  rw [List.all_eq_true] at h
  have := h _ (List.mem_of_getElem? (i := i) (by rw [List.getElem?_mapIdx, hb]; rfl))
  simp only [id, decide_eq_true_eq] at this
  simpa [sumOf] using this

/-- `C80_unbinding` applies: of five bodies, one is removed. Potentials of three bodies in place of five are wrong by up to 33/10, and with these errors the fourth body stays that is unbound
without them (see the example for `C76_unbinding`). -/
example : ∃ s f tr, sampledRun = .ok (s, f, tr) ∧ tr.length = 2 ∧ s.nbound = 4 ∧
    ∃ g, UnbindsWithin (fun _ => 33 / 10) (specificEnergy (fun x y d => x d - y d) lineField 0 false) CentreOf 2 (Enough sampledConfig) atRest
        calmBodies (some (bodiesOf id (s.particles.take s.nbound), g)) ∧ f = some g := by
  obtain ⟨s, f, tr, h, hg⟩ := ranAs_ok (r := sampledRun) (good := fun s f tr => f.isSome && (tr.length = 2) && (s.nbound = 4) &&
    tr.all (fun p => sampleCheck lineField (33 / 10) 3 (entryBodies (bodiesOf id (lineSub calmBodies).particles.reverse) p.list))) (by decide +kernel)
  simp only [Bool.and_eq_true, decide_eq_true_eq, List.all_eq_true] at hg
  obtain ⟨⟨⟨h1, h2⟩, h3⟩, h4⟩ := hg
  refine ⟨s, f, tr, h, h2, h3, ?_⟩
  have key := C80_unbinding sampledConfig linePhysics rfl rfl (fun _ => True) lineField (fun _ _ => 0) lineSolver_exact.near (fun _ => 33 / 10) lineSort lineSort_perm
    List.reverse List.reverse_perm (fun _ => 0) 0 id 9 5 (by decide) atRest (lineSub calmBodies) s f tr h (by decide)
    (by
      rw [lineSub_bodies]
      intro b hb
      simp only [calmBodies, List.mem_cons, List.not_mem_nil, or_false] at hb
      rcases hb with rfl | rfl | rfl | rfl | rfl <;> norm_num [onLine])
    (by decide) _ rfl
    (by
      match tr, h2 with
      | [p, q], _ => simp)
    (fun pre p post e _ => sampleCheck_within (h4 p (by rw [e]; simp)))
  rw [lineSub_bodies] at key
  rcases key with ⟨_, hf, _⟩ | ⟨g, hu, hf, _⟩
  · rw [hf] at h1; cases h1
  · exact ⟨g, by simpa [linePhysics, sampledConfig, lineConfig] using hu, hf⟩

/-- Rounding to nearest with `p` binary digits is as the theorems want it; `float` has 24. -/
theorem C80_float (p : Nat) (hp : 1 ≤ p) (fl : ℚ → ℚ) (h : RoundsToNearest p fl) : RoundsWithin fl (1 / 2 ^ p) := by
  refine ⟨by positivity, fun x => ?_⟩
  by_cases hx : x = 0
  · subst hx
    rw [h.zero]
    simp
  have h1 : |fl x - x| ≤ 1 / 2 * ulp p x := by
    refine ((h x).2 _ (roundTo_rep hp x)).trans ?_
    have e1 : roundTo p x - x = -((x / ulp p x - round (x / ulp p x)) * ulp p x) := by
      have := ulp_pos (p := p) x
      unfold roundTo
      field_simp
      ring
    rw [e1, abs_neg, abs_mul, abs_of_pos (ulp_pos x)]
    exact mul_le_mul_of_nonneg_right (abs_sub_round _) (ulp_pos x).le
  have hb := (log_bounds hx).1
  have hrep : Rep p ((2 : ℚ) ^ Int.log 2 |x|) := by
    have := (Rep.one (p := p) hp).scale (Int.log 2 |x|)
    rwa [one_mul] at this
  have h2 : (2 : ℚ) ^ Int.log 2 |x| ≤ |fl x| := by
    rcases lt_or_gt_of_ne hx with hneg | hpos
    · have h3 := h.le_rep (a := x) hrep.neg (by rw [abs_of_neg hneg] at hb ⊢; linarith)
      have := neg_abs_le (fl x)
      linarith
    · exact (h.rep_le hrep (by rw [abs_of_pos hpos] at hb ⊢; exact hb)).trans (le_abs_self _)
  have h3 : 1 / 2 * ulp p x = 1 / 2 ^ p * (2 : ℚ) ^ Int.log 2 |x| := by
    unfold ulp
    have : Int.log 2 |x| - ((p : Int) - 1) = Int.log 2 |x| + 1 + -(p : Int) := by ring
    rw [this, zpow_add₀ (by norm_num), zpow_add₀ (by norm_num), zpow_neg, zpow_natCast, zpow_one]
    field_simp
  rw [h3] at h1
  exact h1.trans (mul_le_mul_of_nonneg_left h2 (by positivity))

/-- `RoundingOf` for the example. -/
def roundingCheck (u R : ℚ) (l : List (PE ℚ)) : Bool := l.all (fun e => decide (u * ((1 + u) * |e.e| + 0) ≤ R))

/-- `C80_unbinding_rounded` applies, with energies of type `float`. -/
example : ∃ s f tr, unbindBodies sampledConfig { linePhysics with fl := roundTo 24 } lineSort List.reverse (fun _ => 0) 0 id 9 5 atRest (lineSub calmBodies) = .ok (s, f, tr) ∧
    s.nbound = 4 ∧
    ∃ g, UnbindsWithin (fun _ : Body ℚ => 33 / 10 + ((1 + 2 : Nat) : ℚ) * (1 / 1000)) (specificEnergy (fun x y d => x d - y d) lineField 0 false) CentreOf 2 (Enough sampledConfig) atRest
        calmBodies (some (bodiesOf id (s.particles.take s.nbound), g)) ∧ f = some g := by
  obtain ⟨s, f, tr, h, hg⟩ := ranAs_ok (r := unbindBodies sampledConfig { linePhysics with fl := roundTo 24 } lineSort List.reverse (fun _ => 0) 0 id 9 5 atRest (lineSub calmBodies))
    (good := fun s f tr => f.isSome && (tr.length = 2) && (s.nbound = 4) &&
    tr.all (fun p => sampleCheck lineField (33 / 10) 3 (entryBodies (bodiesOf id (lineSub calmBodies).particles.reverse) p.list) && roundingCheck (1 / 2 ^ 24) (1 / 1000) p.list))
    (by decide +kernel)
  simp only [Bool.and_eq_true, decide_eq_true_eq, List.all_eq_true] at hg
  obtain ⟨⟨⟨h1, h2⟩, h3⟩, h4⟩ := hg
  refine ⟨s, f, tr, h, h3, ?_⟩
  have key := C80_unbinding_rounded sampledConfig { linePhysics with fl := roundTo 24 } rfl (1 / 2 ^ 24) (C80_float 24 (by norm_num) _ (roundTo_nearest (by norm_num)))
    (fun _ => True) lineField (fun _ _ => 0) lineSolver_exact.near (fun _ => 33 / 10) (fun _ => 1 / 1000) (fun _ => by norm_num) lineSort lineSort_perm
    List.reverse List.reverse_perm (fun _ => 0) 0 id 9 5 (by decide) atRest (lineSub calmBodies) s f tr h (by decide)
    (by
      rw [lineSub_bodies]
      intro b hb
      simp only [calmBodies, List.mem_cons, List.not_mem_nil, or_false] at hb
      rcases hb with rfl | rfl | rfl | rfl | rfl <;> norm_num [onLine])
    (by decide) _ rfl
    (by
      match tr, h2 with
      | [p, q], _ => simp)
    (by
      intro p hp e he b _
      have := (h4 p hp).2
      unfold roundingCheck at this
      rw [List.all_eq_true] at this
      exact of_decide_eq_true (this e he))
    (fun pre p post e _ => sampleCheck_within (h4 p (by rw [e]; simp)).1)
  rw [lineSub_bodies, h2] at key
  rcases key with ⟨_, hf, _⟩ | ⟨g, hu, hf, _⟩
  · rw [hf] at h1; cases h1
  · exact ⟨g, by simpa [linePhysics, sampledConfig, lineConfig] using hu, hf⟩

/-- `C80_unbinding_periodic` applies to bodies at both edges of the box. -/
example : ∃ s f tr, unbindBodies sampledConfig boxPhysics lineSort List.reverse (fun _ => 0) 0 id 9 5 atRest (lineSub edgeBodies) = .ok (s, f, tr) ∧ 2 ≤ tr.length ∧ s.nbound = 4 ∧
    ∃ g, UnbindsWithin (fun _ => 33 / 10) (specificEnergy (fun x y d => nearest 100 (x d - y d)) boxField (1 / 100) false)
        (CentreInBox 100 (fun x j => x j - (if 50 ≤ x j then (1 : ℤ) else 0) * 100)) 2 (Enough sampledConfig) atRest
        edgeBodies (some (bodiesOf id (s.particles.take s.nbound), g)) ∧ f = some g := by
  obtain ⟨s, f, tr, h, hg⟩ := ranAs_ok (r := unbindBodies sampledConfig boxPhysics lineSort List.reverse (fun _ => 0) 0 id 9 5 atRest (lineSub edgeBodies))
    (good := fun s f tr => f.isSome && (tr.length = 2) && (s.nbound = 4) &&
    tr.all (fun p => sampleCheck boxField (33 / 10) 3 (entryBodies (bodiesOf id (lineSub edgeBodies).particles.reverse) p.list))) (by decide +kernel)
  simp only [Bool.and_eq_true, decide_eq_true_eq, List.all_eq_true] at hg
  obtain ⟨⟨⟨h1, h2⟩, h3⟩, h4⟩ := hg
  refine ⟨s, f, tr, h, by omega, h3, ?_⟩
  have key := C80_unbinding_periodic sampledConfig boxPhysics rfl (by decide) rfl (fun _ => True) boxField (fun _ _ => 0) boxSolver_exact.near (fun _ => 33 / 10) lineSort lineSort_perm
    List.reverse List.reverse_perm (fun _ => 0) 0 id 9 5
    (by decide) atRest (lineSub edgeBodies) s f tr (fun x j => if 50 ≤ x j then (1 : ℤ) else 0) (fun x j => x j - (if 50 ≤ x j then (1 : ℤ) else 0) * 100)
    (fun x j => by simp [boxPhysics]) (fun _ => 0)
    (by
      rw [lineSub_bodies]
      intro x hx j
      simp only [edgeBodies, onLine, atRest, List.map_cons, List.map_nil, List.mem_cons, List.not_mem_nil, or_false] at hx
      rcases hx with rfl | rfl | rfl | rfl | rfl | rfl <;> fin_cases j <;> norm_num [boxPhysics, abs_lt])
    (by
      intro x _ y _ j
      split_ifs <;> norm_num)
    h (by decide) (by rw [lineSub_bodies]; intro b hb; simp only [edgeBodies, List.mem_cons, List.not_mem_nil, or_false] at hb; rcases hb with rfl | rfl | rfl | rfl | rfl <;> norm_num [onLine])
    (by decide) _ rfl
    (by
      match tr, h2 with
      | [p, q], _ => simp)
    (fun pre p post e _ => sampleCheck_within (h4 p (by rw [e]; simp)))
  rw [lineSub_bodies] at key
  rcases key with ⟨_, hf, _⟩ | ⟨g, hu, hf, _⟩
  · rw [hf] at h1; cases h1
  · exact ⟨g, by simpa [boxPhysics, linePhysics, sampledConfig, lineConfig] using hu, hf⟩

end HBT.Props
