import Verif.Lemmas.Moments
import Mathlib.Data.Rat.Floor
import Mathlib.Algebra.Order.Ring.Rat
import Mathlib.Algebra.Order.BigOperators.Group.List
import Mathlib.Tactic.Linarith
import Mathlib.Tactic.Positivity
import Mathlib.Tactic.FieldSimp
/-!
# C54–C56: particle types, shape tensors and kinematic averages
-/
set_option linter.unusedSectionVars false
namespace HBT.Props
open HBT HBT.Model HBT.Spec
variable {K : Type} [Field K] [LinearOrder K] [IsStrictOrderedRing K]

/-! ## C54 -/

/-- C54. For every schedule of the threads, the tables hold the number and mass of the bound
particles of each type; the numbers add up to `Nbound` and the masses to the mass of the bound
particles. `CountParticles`, which has no parallel version, gives the same tables, and `Mbound`. -/
theorem C54_types (split : List (TypedParticle K) → List (List (TypedParticle K))) (hs : ParallelSplit split)
    (nbound : Nat) (ps : List (TypedParticle K)) (hlen : nbound ≤ ps.length)
    (ht : ∀ p ∈ ps.take nbound, 0 ≤ p.type ∧ p.type < 6) (hn : ∀ p ∈ ps.take nbound, p.id ≠ nullId)
    (bound : List (Int × K)) (hb : bound = (ps.take nbound).map (fun p => (p.type, p.mass))) :
    ∃ tab, countParticleTypes split nbound ps = .ok tab ∧
      (∀ t : Fin 6, tab t = (typeCount t.val bound, typeMass t.val bound)) ∧
      ∑ t, (tab t).1 = nbound ∧ ∑ t, (tab t).2 = (bound.map (·.2)).sum ∧
      countParticles nbound ps = .ok (tab, (bound.map (·.2)).sum) := by
  have hb' : bound = (ps.take nbound).map typeOf := hb
  have hft : ∀ skip : Bool, (ps.take nbound).filter (fun p => ¬ (skip = true ∧ p.id = nullId)) = ps.take nbound := by
    intro skip
    rw [List.filter_eq_self]
    intro p hp
    simp [hn p hp]
  have hall : ∀ p ∈ bound, 0 ≤ p.1 ∧ p.1 < 6 := by
    intro p hp
    rw [hb] at hp
    obtain ⟨q, hq, rfl⟩ := List.mem_map.mp hp
    exact ht q hq
  obtain ⟨hs1, hs2⟩ := sum_types bound hall
  refine ⟨fun t => (typeCount t.val bound, typeMass t.val bound), ?_, fun _ => rfl, ?_, hs2, ?_⟩
  · rw [countParticleTypes, if_neg (by omega)]
    split
    · rw [threadTypes_eq _ (fun p hp => ht p ((hs.perm _).mem_iff.mp hp))]
      congr 1
      funext t
      have hp := (hs.perm (ps.take nbound)).map typeOf
      simp only [zero_add, hb']
      refine Prod.ext ?_ ?_
      · exact hp.countP_eq _
      · exact ((hp.filter _).map _).sum_eq
    · rw [addTypes_eq true _ (fun p hp => .inr (ht p hp)), hft, ← hb']
      simp only [zero_add]
  · rw [hs1, hb]; simp [hlen]
  · rw [countParticles, if_neg (by omega), addTypes_eq false _ (fun p hp => .inr (ht p hp)), hft, ← hb']
    simp only [Outcome.bind_ok, zero_add]
    rw [foldl_add_sum, zero_add, ← Fin.sum_univ_def, hs2]

theorem addTypes_bad (skip : Bool) (ps : List (TypedParticle K)) (tab : TypeTable K)
    (h : ∃ p ∈ ps, p.id ≠ nullId ∧ ¬ (0 ≤ p.type ∧ p.type < 6)) : addTypes skip tab ps = .ub := by
  induction ps generalizing tab with
  | nil => simp at h
  | cons q ps ih =>
    rw [addTypes]
    obtain ⟨p, hp, hid, hty⟩ := h
    rcases List.mem_cons.mp hp with rfl | hp
    · rw [if_neg (fun h => hid h.2), addType, dif_neg (fun h => hty ⟨h.1, by omega⟩)]; rfl
    · split
      · exact ih _ ⟨p, hp, hid, hty⟩
      · unfold addType
        split
        · exact ih _ ⟨p, hp, hid, hty⟩
        · rfl

theorem threadTypes_bad (cs : List (List (TypedParticle K))) (tab : TypeTable K)
    (h : ∃ p ∈ cs.flatten, p.id ≠ nullId ∧ ¬ (0 ≤ p.type ∧ p.type < 6)) : threadTypes tab cs = .ub := by
  induction cs generalizing tab with
  | nil => simp at h
  | cons c cs ih =>
    rw [threadTypes]
    obtain ⟨p, hp, hid, hty⟩ := h
    rw [List.flatten_cons, List.mem_append] at hp
    rcases hp with hp | hp
    · rw [addTypes_bad false c _ ⟨p, hp, hid, hty⟩]; rfl
    · have : addTypes false (fun _ => (0, 0)) c = .ub ∨ ∃ own, addTypes false (fun _ => ((0 : Nat), (0 : K))) c = .ok own := by
        by_cases hc : ∃ q ∈ c, ¬ (0 ≤ q.type ∧ q.type < 6)
        · left
          clear ih hp
          obtain ⟨q, hq, hb⟩ := hc
          generalize (fun _ => ((0 : Nat), (0 : K))) = tab0
          induction c generalizing tab0 with
          | nil => simp at hq
          | cons r c ihc =>
            rw [addTypes, if_neg (by simp)]
            rcases List.mem_cons.mp hq with rfl | hq
            · rw [addType, dif_neg (fun h => hb ⟨h.1, by omega⟩)]; rfl
            · unfold addType
              split
              · exact ihc hq _
              · rfl
        · right
          refine ⟨_, addTypes_eq false c (fun q hq => .inr ?_) _⟩
          by_contra h'
          exact hc ⟨q, hq, h'⟩
      rcases this with h' | ⟨own, h'⟩
      · rw [h']; rfl
      · rw [h']
        exact ih _ ⟨p, hp, hid, hty⟩

/-- C54: a bound particle with a type outside the six known ones makes the program write outside the
tables, under every schedule. The types come from the input files unchecked. -/
theorem C54_bad_type (split : List (TypedParticle K) → List (List (TypedParticle K))) (hs : ParallelSplit split)
    (nbound : Nat) (ps : List (TypedParticle K))
    (h : ∃ p ∈ ps.take nbound, p.id ≠ nullId ∧ ¬ (0 ≤ p.type ∧ p.type < 6)) :
    countParticleTypes split nbound ps = .ub := by
  rw [countParticleTypes]
  split
  · rfl
  · split
    · obtain ⟨p, hp, h'⟩ := h
      exact threadTypes_bad _ _ ⟨p, (hs.perm _).mem_iff.mpr hp, h'⟩
    · exact addTypes_bad true _ _ h

/-- Finding (C54): consumed particles (null identifier) are left out of the table of a subhalo with up
to 100 bound particles and counted in the table of a larger one. -/
theorem C54_null_finding (split : List (TypedParticle K) → List (List (TypedParticle K))) (hs : ParallelSplit split)
    (nbound : Nat) (ps : List (TypedParticle K)) (hlen : nbound ≤ ps.length)
    (ht : ∀ p ∈ ps.take nbound, 0 ≤ p.type ∧ p.type < 6) :
    ∃ tab, countParticleTypes split nbound ps = .ok tab ∧
      (nbound ≤ 100 → ∀ t : Fin 6, (tab t).1 = typeCount t.val
        (((ps.take nbound).filter (fun p => p.id ≠ nullId)).map (fun p => (p.type, p.mass)))) ∧
      (100 < nbound → ∀ t : Fin 6, (tab t).1 = typeCount t.val
        ((ps.take nbound).map (fun p => (p.type, p.mass)))) := by
  rw [countParticleTypes, if_neg (by omega)]
  by_cases h : nbound > 100
  · rw [if_pos h, threadTypes_eq _ (fun p hp => ht p ((hs.perm _).mem_iff.mp hp))]
    refine ⟨_, rfl, fun h' => by omega, fun _ t => ?_⟩
    simp only [zero_add]
    exact ((hs.perm (ps.take nbound)).map typeOf).countP_eq _
  · rw [if_neg h, addTypes_eq true _ (fun p hp => .inr (ht p hp))]
    refine ⟨_, rfl, fun _ t => ?_, fun h' => by omega⟩
    simp only [zero_add, true_and]
    rfl

/-! ## C55 -/

/-- The offset used for the shape: the difference of the positions, or its nearest image. -/
abbrev offsetFrom (periodic : Bool) (B : K) (cen x : Fin 3 → K) (j : Fin 3) : K :=
  if periodic then nearest B (x j - cen j) else x j - cen j

theorem shape_sums (split : List (Weighted K) → List (List (Weighted K))) (hs : ParallelSplit split)
    (periodic : Bool) (B : K) (cen : Fin 3 → K) (l : List (Weighted K)) (n : Fin 3 → K) :
    along (reduction split (shapeTerm periodic B cen) l).1 n
      = weightedSum (fun x => dot (offsetFrom periodic B cen x) n ^ 2) l := by
  rw [reduction_eq split hs, sum_fst, along_sum, weightedSum, List.map_map, List.map_map]
  congr 1
  apply List.map_congr_left
  intro p _
  show along (fun k => products _ k * p.1) n = _
  rw [along_mul, along_products]
  show dot (offsetFrom periodic B cen p.2) n * dot (offsetFrom periodic B cen p.2) n * p.1 = _
  ring

/-- C55, no bound particles besides the centre: both tensors are zero. -/
theorem C55_unresolved (split : List (Weighted K) → List (List (Weighted K))) (periodic : Bool) (B : K)
    (cen : Fin 3 → K) (mbound : K) (ps : List (Weighted K)) (n : Nat) (hn : n ≤ 1) :
    calculateShape split periodic B cen mbound ps n = .ok (0, 0) := by
  rw [calculateShape, if_pos hn]

/-- C55. For every schedule, with the most bound particle as centre, the inertia tensor is the second
moment of the bound particles: along any direction `n` it is the mass-weighted sum of the
squared offsets along `n`, divided by the bound mass. The skipped first particle is the centre itself.
The values along all directions determine the tensor; for non-negative masses they are non-negative. -/
theorem C55_tensor (split : List (Weighted K) → List (List (Weighted K))) (hs : ParallelSplit split)
    (periodic : Bool) (B : K) (hB : 0 < B) (mbound : K) (p₀ : Weighted K) (ps : List (Weighted K)) (n : Nat)
    (hn : 1 < n) (hlen : n ≤ ps.length + 1) :
    ∃ T W, calculateShape split periodic B p₀.2 mbound (p₀ :: ps) n = .ok (T, W) ∧
      (∀ u, along T u
        = weightedSum (fun x => dot (offsetFrom periodic B p₀.2 x) u ^ 2) ((p₀ :: ps).take n) / mbound) ∧
      ((∀ p ∈ ps, 0 ≤ p.1) → 0 ≤ p₀.1 → 0 ≤ mbound → ∀ u, 0 ≤ along T u) := by
  obtain ⟨k, rfl⟩ : ∃ k, n = k + 1 := ⟨n - 1, by omega⟩
  have key : ∀ u, along (fun k' => (reduction split (shapeTerm periodic B p₀.2) (((p₀ :: ps).take (k + 1)).drop 1)).1 k' / mbound) u
      = weightedSum (fun x => dot (offsetFrom periodic B p₀.2 x) u ^ 2) ((p₀ :: ps).take (k + 1)) / mbound := by
    intro u
    rw [along_div, shape_sums split hs]
    congr 1
    rw [List.take_succ_cons, List.drop_succ_cons, List.drop_zero, weightedSum, weightedSum, List.map_cons, List.sum_cons]
    have h0 : ∀ j, offsetFrom periodic B p₀.2 p₀.2 j = 0 := by
      intro j
      simp only [offsetFrom, sub_self, nearest]
      split
      · rw [if_neg (by linarith), if_neg (by linarith)]
      · rfl
    rw [show dot (offsetFrom periodic B p₀.2 p₀.2) u = 0 by simp [dot, h0]]
    ring
  rw [calculateShape, if_neg (by omega), if_neg (by simp; omega)]
  refine ⟨_, _, rfl, key, ?_⟩
  intro hm h0 hM u
  rw [key]
  refine div_nonneg (List.sum_nonneg ?_) hM
  intro x hx
  obtain ⟨p, hp, rfl⟩ := List.mem_map.mp hx
  have : 0 ≤ p.1 := by
    rcases List.mem_cons.mp (List.mem_of_mem_take hp) with rfl | h
    · exact h0
    · exact hm p h
  positivity

theorem dot_le (d u : Fin 3 → K) : dot d u ^ 2 ≤ dot d d * dot u u := by
  simp only [dot]
  nlinarith [sq_nonneg (d 0 * u 1 - d 1 * u 0), sq_nonneg (d 0 * u 2 - d 2 * u 0), sq_nonneg (d 1 * u 2 - d 2 * u 1)]

theorem dot_self_pos (d : Fin 3 → K) (h : dot d d ≠ 0) : 0 < dot d d := by
  refine lt_of_le_of_ne ?_ (Ne.symm h)
  simp only [dot]
  nlinarith [mul_self_nonneg (d 0), mul_self_nonneg (d 1), mul_self_nonneg (d 2)]

/-- C55, the weighted tensor, if no other bound particle sits exactly at the centre: along `u` it is
the mass-weighted sum of the squared cosines, so its values along unit vectors lie
between 0 and 1, and its trace is the mass fraction of the particles other than the first. -/
theorem C55_weighted (split : List (Weighted K) → List (List (Weighted K))) (hs : ParallelSplit split)
    (periodic : Bool) (B : K) (mbound : K) (p₀ : Weighted K) (ps : List (Weighted K)) (n : Nat)
    (hn : 1 < n) (hlen : n ≤ ps.length + 1)
    (hne : ∀ p ∈ ps.take (n - 1), dot (offsetFrom periodic B p₀.2 p.2) (offsetFrom periodic B p₀.2 p.2) ≠ 0)
    (hm : ∀ p ∈ p₀ :: ps, 0 < p.1) (hM : mbound = ((((p₀ :: ps).take n).map (·.1)).sum)) :
    ∃ T, ∃ W : Fin 6 → K, calculateShape split periodic B p₀.2 mbound (p₀ :: ps) n = .ok (T, W) ∧
      (∀ u, along W u = weightedSum (fun x => dot (offsetFrom periodic B p₀.2 x) u ^ 2
        / dot (offsetFrom periodic B p₀.2 x) (offsetFrom periodic B p₀.2 x)) (ps.take (n - 1)) / mbound) ∧
      (∀ u, 0 ≤ along W u ∧ along W u ≤ dot u u) ∧
      W 0 + W 3 + W 5 = 1 - p₀.1 / mbound := by
  obtain ⟨k, rfl⟩ : ∃ k, n = k + 1 := ⟨n - 1, by omega⟩
  simp only [Nat.add_sub_cancel] at hne ⊢
  obtain ⟨l, hl⟩ : ∃ l, l = ps.take k := ⟨_, rfl⟩
  rw [← hl] at hne ⊢
  have hml : ∀ p ∈ l, 0 < p.1 := fun p hp => hm p (by
    rw [hl] at hp; exact List.mem_cons_of_mem _ (List.mem_of_mem_take hp))
  have hM' : mbound = p₀.1 + (l.map (·.1)).sum := by
    rw [hM, List.take_succ_cons, List.map_cons, List.sum_cons, ← hl]
  have hl0 : 0 ≤ (l.map (·.1)).sum := List.sum_nonneg (by
    intro x hx
    obtain ⟨p, hp, rfl⟩ := List.mem_map.mp hx
    exact le_of_lt (hml p hp))
  have hMpos : 0 < mbound := by rw [hM']; linarith [hm p₀ (by simp)]
  obtain ⟨g, hg⟩ : ∃ g : Weighted K → Fin 6 → K, g = fun p k => products (offsetFrom periodic B p₀.2 p.2) k * p.1
      / dot (offsetFrom periodic B p₀.2 p.2) (offsetFrom periodic B p₀.2 p.2) := ⟨_, rfl⟩
  have hred : (reduction split (shapeTerm periodic B p₀.2) l).2 = WithTop.some ((l.map g).sum) := by
    rw [reduction_eq split hs, sum_snd, ← sum_coe_withTop, List.map_map, List.map_map]
    congr 1
    apply List.map_congr_left
    intro p hp
    simp only [Function.comp_apply, shapeTerm]
    have h1 : ¬ (shapeOffset periodic B p₀.2 p.2 0 * shapeOffset periodic B p₀.2 p.2 0
        + shapeOffset periodic B p₀.2 p.2 1 * shapeOffset periodic B p₀.2 p.2 1
        + shapeOffset periodic B p₀.2 p.2 2 * shapeOffset periodic B p₀.2 p.2 2 = 0) := hne p hp
    rw [if_neg h1, hg]
    rfl
  have hW : calculateShape split periodic B p₀.2 mbound (p₀ :: ps) (k + 1)
      = .ok (fun k => (reduction split (shapeTerm periodic B p₀.2) l).1 k / mbound,
          WithTop.some (fun k => (l.map g).sum k / mbound)) := by
    rw [calculateShape, if_neg (by omega), if_neg (by simp; omega)]
    simp only [List.take_succ_cons, List.drop_succ_cons, List.drop_zero]
    rw [← hl, hred]
    rfl
  have hu : ∀ u, along (fun k => (l.map g).sum k / mbound) u
      = weightedSum (fun x => dot (offsetFrom periodic B p₀.2 x) u ^ 2
        / dot (offsetFrom periodic B p₀.2 x) (offsetFrom periodic B p₀.2 x)) l / mbound := by
    intro u
    rw [along_div, along_sum, List.map_map, weightedSum]
    congr 2
    apply List.map_congr_left
    intro p _
    simp only [Function.comp_apply, hg]
    rw [along_div, along_mul, along_products]
    ring
  refine ⟨_, _, hW, hu, ?_, ?_⟩
  · intro u
    rw [hu]
    have hterm : ∀ p ∈ l, 0 ≤ p.1 * (dot (offsetFrom periodic B p₀.2 p.2) u ^ 2
        / dot (offsetFrom periodic B p₀.2 p.2) (offsetFrom periodic B p₀.2 p.2)) ∧
        p.1 * (dot (offsetFrom periodic B p₀.2 p.2) u ^ 2
        / dot (offsetFrom periodic B p₀.2 p.2) (offsetFrom periodic B p₀.2 p.2)) ≤ p.1 * dot u u := by
      intro p hp
      have h1 := dot_self_pos _ (hne p hp)
      have h2 := hml p hp
      constructor
      · positivity
      · refine mul_le_mul_of_nonneg_left ?_ (le_of_lt h2)
        rw [div_le_iff₀ h1, mul_comm]
        exact dot_le _ _
    constructor
    · refine div_nonneg (List.sum_nonneg ?_) (le_of_lt hMpos)
      intro x hx
      obtain ⟨p, hp, rfl⟩ := List.mem_map.mp hx
      exact (hterm p hp).1
    · rw [div_le_iff₀ hMpos, weightedSum]
      have h1 : (l.map (fun p => p.1 * (dot (offsetFrom periodic B p₀.2 p.2) u ^ 2
          / dot (offsetFrom periodic B p₀.2 p.2) (offsetFrom periodic B p₀.2 p.2)))).sum
          ≤ (l.map (fun p => p.1 * dot u u)).sum :=
        List.sum_le_sum (fun p hp => (hterm p hp).2)
      have h2 : (l.map (fun p => p.1 * dot u u)).sum = (l.map (·.1)).sum * dot u u := by
        rw [List.sum_map_mul_right]
      have h3 : 0 ≤ dot u u := by
        simp only [dot]; nlinarith [mul_self_nonneg (u 0), mul_self_nonneg (u 1), mul_self_nonneg (u 2)]
      rw [h2] at h1
      refine le_trans h1 ?_
      rw [hM', mul_comm]
      refine mul_le_mul_of_nonneg_left ?_ h3
      linarith [hm p₀ (by simp)]
  · rw [← add_div, ← add_div, sum_apply, sum_apply, sum_apply, eq_sub_iff_add_eq, ← add_div, div_eq_one_iff_eq hMpos.ne', hM',
      add_comm p₀.1, List.map_map, List.map_map, List.map_map, ← List.sum_map_add, ← List.sum_map_add]
    congr 2
    apply List.map_congr_left
    intro p hp
    have h1 := hne p hp
    simp only [Function.comp_apply, hg, products]
    rw [← add_div, ← add_div, div_eq_iff h1]
    simp only [dot]
    ring

/-- Finding (C55): if another bound particle has exactly the position of the most bound one, every
entry of the weighted tensor becomes "not a number", whatever the other particles are. -/
theorem C55_coincident_finding (split : List (Weighted K) → List (List (Weighted K))) (hs : ParallelSplit split)
    (periodic : Bool) (B : K) (hB : 0 < B) (mbound : K) (p₀ : Weighted K) (ps : List (Weighted K)) (n : Nat)
    (hn : 1 < n) (hlen : n ≤ ps.length + 1) (h : ∃ p ∈ ps.take (n - 1), p.2 = p₀.2) :
    ∃ T, calculateShape split periodic B p₀.2 mbound (p₀ :: ps) n = .ok (T, ⊤) := by
  obtain ⟨k, rfl⟩ : ∃ k, n = k + 1 := ⟨n - 1, by omega⟩
  rw [calculateShape, if_neg (by omega), if_neg (by simp; omega)]
  obtain ⟨p, hp, hpe⟩ := h
  simp only [List.take_succ_cons, List.drop_succ_cons, List.drop_zero]
  have : (reduction split (shapeTerm periodic B p₀.2) (ps.take k)).2 = ⊤ := by
    rw [reduction_eq split hs, sum_snd]
    apply sum_top
    rw [List.map_map, List.mem_map]
    refine ⟨p, hp, ?_⟩
    simp only [Function.comp_apply, shapeTerm]
    rw [if_pos]
    rw [hpe]
    have h0 : ∀ j, shapeOffset periodic B p₀.2 p₀.2 j = 0 := by
      intro j
      simp only [shapeOffset, sub_self, nearest]
      split
      · rw [if_neg (by linarith), if_neg (by linarith)]
      · rfl
    simp [h0]
  rw [this]
  exact ⟨_, rfl⟩

end HBT.Props
