import Verif.Props.Moments
/-!
# C55 in a periodic box, and C56: energies and angular momentum
-/
set_option linter.unusedSectionVars false
namespace HBT.Props
open HBT HBT.Model HBT.Spec
variable {K : Type} [Field K] [LinearOrder K] [IsStrictOrderedRing K]

theorem seen_offset (B : K) (hB : 0 < B) (q0 p : BoxParticle K) (h : Near B q0 p) (j : Fin 3) :
    nearest B ((p.seen B).2 j - (q0.seen B).2 j) = p.pos j - q0.pos j := by
  have e : (p.seen B).2 j - (q0.seen B).2 j = (p.pos j - q0.pos j) + ((p.turns j - q0.turns j : ℤ) : K) * B := by
    simp only [BoxParticle.seen]; push_cast; ring
  rw [e, nearest_unwrap B _ _ hB (h j).1 (h j).2]

/-- C55 in a periodic box. For a subhalo that is compact in free space and recorded inside the box,
both tensors are those of the subhalo in free space, wherever it lies with respect to the box edges and
whatever the schedules. -/
theorem C55_periodic (split split' : List (Weighted K) → List (List (Weighted K))) (hs : ParallelSplit split)
    (hs' : ParallelSplit split') (B : K) (hB : 0 < B) (mbound : K) (q0 : BoxParticle K) (qs : List (BoxParticle K))
    (n : Nat) (hc : CompactIn B (q0 :: qs)) (hr : SeenInBox B (q0 :: qs)) :
    calculateShape split true B (q0.seen B).2 mbound ((q0 :: qs).map (BoxParticle.seen B)) n
      = calculateShape split' false B q0.pos mbound ((q0 :: qs).map BoxParticle.free) n := by
  have hterm : ∀ p ∈ q0 :: qs, shapeTerm true B (q0.seen B).2 (p.seen B) = shapeTerm false B q0.pos p.free := by
    intro p hp
    have hnear : Near B q0 p := fun j => ⟨hc p hp q0 (by simp) j,
      turns_near B hB p q0 (hc p hp q0 (by simp)) (hr p hp) (hr q0 (by simp)) j⟩
    have hoff : shapeOffset true B (q0.seen B).2 (p.seen B).2 = shapeOffset false B q0.pos p.free.2 := by
      funext j
      simp only [shapeOffset, if_true, Bool.false_eq_true, if_false]
      rw [seen_offset B hB q0 p hnear]
      rfl
    simp only [shapeTerm, hoff]
    rfl
  unfold calculateShape
  split
  · rfl
  · simp only [List.length_map]
    split
    · rfl
    · have : reduction split (shapeTerm true B (q0.seen B).2) (List.drop 1 (List.take n ((q0 :: qs).map (BoxParticle.seen B))))
          = reduction split' (shapeTerm false B q0.pos) (List.drop 1 (List.take n ((q0 :: qs).map BoxParticle.free))) := by
        rw [reduction_eq split hs, reduction_eq split' hs', ← List.map_take, ← List.map_take, ← List.map_drop,
          ← List.map_drop, List.map_map, List.map_map]
        congr 1
        apply List.map_congr_left
        intro p hp
        exact hterm p (List.mem_of_mem_take (List.mem_of_mem_drop hp))
      simp only [this]

/-! ## C56 -/

/-- Physical offset from the reference position: difference or nearest image, times the scale factor. -/
abbrev physOffset (fr : KinFrame K) (x : Fin 3 → K) (j : Fin 3) : K :=
  (if fr.periodic then nearest fr.boxsize (x j - fr.refPos j) else x j - fr.refPos j) * fr.scale

/-- Velocity relative to the reference velocity, with the Hubble flow. -/
abbrev physVelocity (fr : KinFrame K) (p : EnergyParticle K) (j : Fin 3) : K :=
  p.vel j - fr.refVel j + fr.hz * physOffset fr p.pos j

theorem sum_map_diff {α : Type} (l : List α) (f g : α → K) :
    (l.map (fun p => f p - g p)).sum = (l.map f).sum - (l.map g).sum := by
  induction l with
  | nil => simp
  | cons p l ih => simp only [List.map_cons, List.sum_cons, ih]; ring

theorem kin_sums (split : List (EnergyParticle K) → List (List (EnergyParticle K))) (hs : ParallelSplit split)
    (fr : KinFrame K) (l : List (EnergyParticle K)) :
    (reduction split (kinTerm fr) l).1 = (l.map (fun p => p.mass * p.energy)).sum ∧
    (reduction split (kinTerm fr) l).2.1
      = (l.map (fun p => p.mass * dot (physVelocity fr p) (physVelocity fr p))).sum ∧
    (∀ j, (reduction split (kinTerm fr) l).2.2.1 j
      = (l.map (fun p => p.mass * cross (physOffset fr p.pos) (physVelocity fr p) j)).sum) ∧
    (reduction split (kinTerm fr) l).2.2.2 = (l.map (fun p => p.mass)).sum := by
  rw [reduction_eq split hs]
  refine ⟨?_, ?_, ?_, ?_⟩
  · rw [sum_fst, List.map_map]
    congr 1
    apply List.map_congr_left
    intro p _
    show p.energy * p.mass = _
    ring
  · rw [sum_snd, sum_fst, List.map_map, List.map_map]
    congr 1
    apply List.map_congr_left
    intro p _
    simp only [Function.comp_apply, kinTerm, kinVelocity, kinOffset, physVelocity, physOffset, dot]
    ring
  · intro j
    rw [sum_snd, sum_snd, sum_fst, sum_apply, List.map_map, List.map_map, List.map_map, List.map_map]
    congr 1
    apply List.map_congr_left
    intro p _
    match j with
    | 0 | 1 | 2 =>
      simp only [Function.comp_apply, kinTerm, kinVelocity, kinOffset, physVelocity, physOffset, cross]
      ring
  · rw [sum_snd, sum_snd, sum_snd, List.map_map, List.map_map, List.map_map]
    rfl

/-- C56, fewer than two bound particles: everything is zero. -/
theorem C56_unresolved (split : List (EnergyParticle K) → List (List (EnergyParticle K))) (fr : KinFrame K)
    (ps : List (EnergyParticle K)) (n : Nat) (hn : n ≤ 1) :
    averageKinematics split fr ps n = .ok ⟨0, 0, fun _ => 0⟩ := by
  rw [averageKinematics, if_pos hn]

/-- C56. For every schedule: the kinetic energy is the mass-weighted average of half the squared relative
velocity, the angular momentum that of offset × relative velocity, and the potential energy that of
the part of the particle energies that is not kinetic. -/
theorem C56_averages (split : List (EnergyParticle K) → List (List (EnergyParticle K))) (hs : ParallelSplit split)
    (fr : KinFrame K) (ps : List (EnergyParticle K)) (n : Nat) (hn : 1 < n) (hlen : n ≤ ps.length) :
    ∃ r, averageKinematics split fr ps n = .ok r ∧
      r.kinetic = massAverage EnergyParticle.mass
        (fun p => dot (physVelocity fr p) (physVelocity fr p) / 2) (ps.take n) ∧
      r.potential = massAverage EnergyParticle.mass
        (fun p => p.energy - dot (physVelocity fr p) (physVelocity fr p) / 2) (ps.take n) ∧
      ∀ j, r.angular j = massAverage EnergyParticle.mass
        (fun p => cross (physOffset fr p.pos) (physVelocity fr p) j) (ps.take n) := by
  obtain ⟨h1, h2, h3, h4⟩ := kin_sums split hs fr (ps.take n)
  rw [averageKinematics, if_neg (by omega), if_neg (by omega)]
  have hk : (reduction split (kinTerm fr) (ps.take n)).2.1 * (1 / 2 / (reduction split (kinTerm fr) (ps.take n)).2.2.2)
      = massAverage EnergyParticle.mass (fun p => dot (physVelocity fr p) (physVelocity fr p) / 2) (ps.take n) := by
    rw [h2, h4, massAverage]
    have : ((ps.take n).map (fun p => p.mass * (dot (physVelocity fr p) (physVelocity fr p) / 2))).sum
        = ((ps.take n).map (fun p => p.mass * dot (physVelocity fr p) (physVelocity fr p))).sum * (1 / 2) := by
      rw [← List.sum_map_mul_right]
      congr 1
      apply List.map_congr_left
      intro p _
      ring
    rw [this]
    ring
  refine ⟨_, rfl, hk, ?_, ?_⟩
  · simp only
    rw [hk, h1, h4, massAverage, massAverage, ← sub_div, ← sum_map_diff]
    congr 2
    apply List.map_congr_left
    intro p _
    ring
  · intro j
    simp only
    rw [h3, h4]
    rfl

/-- C56: if the energies in the list are kinetic energy plus potential in the same frame, the
potential energy reported is the mass-weighted average of the potential. -/
theorem C56_potential (split : List (EnergyParticle K) → List (List (EnergyParticle K))) (hs : ParallelSplit split)
    (fr : KinFrame K) (ps : List (EnergyParticle K)) (n : Nat) (hn : 1 < n) (hlen : n ≤ ps.length)
    (pot : EnergyParticle K → K)
    (he : ∀ p ∈ ps, p.energy = dot (physVelocity fr p) (physVelocity fr p) / 2 + pot p) :
    ∃ r, averageKinematics split fr ps n = .ok r ∧
      r.potential = massAverage EnergyParticle.mass pot (ps.take n) := by
  obtain ⟨r, hr, -, h, -⟩ := C56_averages split hs fr ps n hn hlen
  refine ⟨r, hr, ?_⟩
  rw [h, massAverage, massAverage]
  congr 2
  apply List.map_congr_left
  intro p hp
  rw [he p (List.mem_of_mem_take hp)]
  ring

theorem cross_self_add (x v : Fin 3 → K) (h : K) (j : Fin 3) :
    cross x (fun j => v j + h * x j) j = cross x v j := by
  match j with
  | 0 | 1 | 2 => simp only [cross]; ring

/-- C56: the Hubble flow does not contribute to the angular momentum. -/
theorem C56_hubble (split : List (EnergyParticle K) → List (List (EnergyParticle K))) (hs : ParallelSplit split)
    (fr : KinFrame K) (ps : List (EnergyParticle K)) (n : Nat) (hn : 1 < n) (hlen : n ≤ ps.length) :
    ∃ r r', averageKinematics split fr ps n = .ok r ∧ averageKinematics split { fr with hz := 0 } ps n = .ok r' ∧
      r.angular = r'.angular := by
  obtain ⟨r, hr, -, -, h⟩ := C56_averages split hs fr ps n hn hlen
  obtain ⟨r', hr', -, -, h'⟩ := C56_averages split hs { fr with hz := 0 } ps n hn hlen
  refine ⟨r, r', hr, hr', ?_⟩
  funext j
  rw [h, h']
  have : ∀ p : EnergyParticle K, cross (physOffset fr p.pos) (physVelocity fr p) j
      = cross (physOffset { fr with hz := 0 } p.pos) (physVelocity { fr with hz := 0 } p) j := by
    intro p
    have e := cross_self_add (physOffset fr p.pos) (fun j => p.vel j - fr.refVel j) fr.hz j
    have e' := cross_self_add (physOffset fr p.pos) (fun j => p.vel j - fr.refVel j) 0 j
    exact e.trans e'.symm
  simp only [this]

/-- C56: results do not change when the same velocity is added to all particles and to the reference
velocity. -/
theorem C56_galilean (split : List (EnergyParticle K) → List (List (EnergyParticle K))) (hs : ParallelSplit split)
    (fr : KinFrame K) (ps : List (EnergyParticle K)) (n : Nat) (w : Fin 3 → K) :
    averageKinematics split { fr with refVel := fun j => fr.refVel j + w j }
        (ps.map (fun p => { p with vel := fun j => p.vel j + w j })) n
      = averageKinematics split fr ps n := by
  unfold averageKinematics
  split
  · rfl
  · simp only [List.length_map]
    split
    · rfl
    · have : reduction split (kinTerm { fr with refVel := fun j => fr.refVel j + w j })
          (List.take n (ps.map (fun p => { p with vel := fun j => p.vel j + w j })))
          = reduction split (kinTerm fr) (List.take n ps) := by
        rw [reduction_eq split hs, reduction_eq split hs, ← List.map_take, List.map_map]
        congr 1
        apply List.map_congr_left
        intro p _
        have hv : kinVelocity { fr with refVel := fun j => fr.refVel j + w j } p.pos (fun j => p.vel j + w j)
            = kinVelocity fr p.pos p.vel := by
          funext j
          simp only [kinVelocity, kinOffset]
          ring
        simp only [Function.comp_apply, kinTerm, hv]
        rfl
      rw [this]

theorem sum_mass_mul (l : List (EnergyParticle K)) (f : EnergyParticle K → K) (c : K)
    (h : (l.map (fun p => p.mass * f p)).sum = 0) : (l.map (fun p => p.mass * (f p * c))).sum = 0 := by
  have : (l.map (fun p => p.mass * (f p * c))).sum = (l.map (fun p => p.mass * f p)).sum * c := by
    rw [← List.sum_map_mul_right]
    congr 1
    apply List.map_congr_left
    intro p _
    ring
  rw [this, h, zero_mul]

/-- C56: with the centre of mass as reference position the angular momentum does not depend on the
reference velocity. -/
theorem C56_centre (split : List (EnergyParticle K) → List (List (EnergyParticle K))) (hs : ParallelSplit split)
    (fr : KinFrame K) (ps : List (EnergyParticle K)) (n : Nat) (hn : 1 < n) (hlen : n ≤ ps.length)
    (hcen : ∀ j, massAverage EnergyParticle.mass (fun p => physOffset fr p.pos j) (ps.take n) = 0)
    (hM : ((ps.take n).map EnergyParticle.mass).sum ≠ 0) (w : Fin 3 → K) :
    ∃ r r', averageKinematics split fr ps n = .ok r ∧
      averageKinematics split { fr with refVel := w } ps n = .ok r' ∧ r.angular = r'.angular := by
  obtain ⟨r, hr, -, -, h⟩ := C56_averages split hs fr ps n hn hlen
  obtain ⟨r', hr', -, -, h'⟩ := C56_averages split hs { fr with refVel := w } ps n hn hlen
  refine ⟨r, r', hr, hr', ?_⟩
  have h0 : ∀ j, ((ps.take n).map (fun p => p.mass * physOffset fr p.pos j)).sum = 0 := by
    intro j
    have := hcen j
    rw [massAverage, div_eq_zero_iff] at this
    exact this.resolve_right hM
  funext j
  rw [h, h', massAverage, massAverage]
  congr 1
  rw [← sub_eq_zero, ← sum_map_diff]
  obtain ⟨u, hu⟩ : ∃ u : Fin 3 → K, u = fun j => w j - fr.refVel j := ⟨_, rfl⟩
  have key : ∀ a b : Fin 3, (∀ p : EnergyParticle K, p.mass * cross (physOffset fr p.pos) (physVelocity fr p) j
      - p.mass * cross (physOffset { fr with refVel := w } p.pos) (physVelocity { fr with refVel := w } p) j
      = p.mass * (physOffset fr p.pos a * u b) - p.mass * (physOffset fr p.pos b * u a)) →
      ((ps.take n).map (fun p => p.mass * cross (physOffset fr p.pos) (physVelocity fr p) j
      - p.mass * cross (physOffset { fr with refVel := w } p.pos) (physVelocity { fr with refVel := w } p) j)).sum = 0 := by
    intro a b hab
    simp only [hab]
    rw [sum_map_diff, sum_mass_mul _ _ _ (h0 a), sum_mass_mul _ _ _ (h0 b), sub_zero]
  match j with
  | 0 => exact key 1 2 (fun p => by simp only [hu, cross]; ring)
  | 1 => exact key 2 0 (fun p => by simp only [hu, cross]; ring)
  | 2 => exact key 0 1 (fun p => by simp only [hu, cross]; ring)

/-- C56: no reference velocity gives a smaller kinetic energy than one in which the relative velocities
average to zero. -/
theorem C56_koenig (split : List (EnergyParticle K) → List (List (EnergyParticle K))) (hs : ParallelSplit split)
    (fr : KinFrame K) (ps : List (EnergyParticle K)) (n : Nat) (hn : 1 < n) (hlen : n ≤ ps.length)
    (hmean : ∀ j, massAverage EnergyParticle.mass (fun p => physVelocity fr p j) (ps.take n) = 0)
    (hm : ∀ p ∈ ps, 0 < p.mass) (w : Fin 3 → K) :
    ∃ r r', averageKinematics split fr ps n = .ok r ∧
      averageKinematics split { fr with refVel := w } ps n = .ok r' ∧
      0 ≤ r.kinetic ∧
      r'.kinetic = r.kinetic + dot (fun j => w j - fr.refVel j) (fun j => w j - fr.refVel j) / 2 := by
  obtain ⟨r, hr, h, -, -⟩ := C56_averages split hs fr ps n hn hlen
  obtain ⟨r', hr', h', -, -⟩ := C56_averages split hs { fr with refVel := w } ps n hn hlen
  have hMpos : 0 < ((ps.take n).map EnergyParticle.mass).sum := by
    obtain ⟨k, rfl⟩ : ∃ k, n = k + 1 := ⟨n - 1, by omega⟩
    cases ps with
    | nil => simp at hlen
    | cons p ps =>
      rw [List.take_succ_cons, List.map_cons, List.sum_cons]
      have h1 := hm p (by simp)
      have h2 : 0 ≤ ((ps.take k).map EnergyParticle.mass).sum := List.sum_nonneg (by
        intro x hx
        obtain ⟨q, hq, rfl⟩ := List.mem_map.mp hx
        exact le_of_lt (hm q (by simp [List.mem_of_mem_take hq])))
      linarith
  have h0 : ∀ j, ((ps.take n).map (fun p => p.mass * physVelocity fr p j)).sum = 0 := by
    intro j
    have := hmean j
    rw [massAverage, div_eq_zero_iff] at this
    exact this.resolve_right hMpos.ne'
  refine ⟨r, r', hr, hr', ?_, ?_⟩
  · rw [h]
    refine div_nonneg (List.sum_nonneg ?_) (le_of_lt hMpos)
    intro x hx
    obtain ⟨p, hp, rfl⟩ := List.mem_map.mp hx
    have h1 := hm p (List.mem_of_mem_take hp)
    have h2 : 0 ≤ dot (physVelocity fr p) (physVelocity fr p) := by
      simp only [dot]
      nlinarith [mul_self_nonneg (physVelocity fr p 0), mul_self_nonneg (physVelocity fr p 1), mul_self_nonneg (physVelocity fr p 2)]
    positivity
  · rw [h, h', massAverage, massAverage, eq_comm, div_add' _ _ _ hMpos.ne']
    congr 1
    obtain ⟨u, hu⟩ : ∃ u : Fin 3 → K, u = fun j => w j - fr.refVel j := ⟨_, rfl⟩
    have hp : ∀ p : EnergyParticle K, p.mass * (dot (physVelocity { fr with refVel := w } p) (physVelocity { fr with refVel := w } p) / 2)
        = p.mass * (dot (physVelocity fr p) (physVelocity fr p) / 2) + p.mass * (dot u u / 2)
          - p.mass * (physVelocity fr p 0 * u 0) - p.mass * (physVelocity fr p 1 * u 1) - p.mass * (physVelocity fr p 2 * u 2) := by
      intro p
      simp only [hu, dot, physVelocity]
      ring
    simp only [hp]
    rw [sum_map_diff, sum_map_diff, sum_map_diff, List.sum_map_add, sum_mass_mul _ _ _ (h0 0), sum_mass_mul _ _ _ (h0 1),
      sum_mass_mul _ _ _ (h0 2), List.sum_map_mul_right, ← hu]
    ring

end HBT.Props
