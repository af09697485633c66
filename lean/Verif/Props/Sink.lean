import Verif.Lemmas.Sink
import Mathlib.Data.Real.Sqrt
import Mathlib.Tactic.NormNum
/-!
# C65: when a subhalo merges

The core of a subhalo with more than one bound particle consists of its twenty most bound particles (all of them if there
are fewer). A subhalo sinks into the first of its hosts, going outwards, that has a core and is near enough
in position and velocity, in units of the spread of the core.
-/
namespace HBT.Props
open HBT.Model HBT.Spec
variable {K D : Type} [Field K]

/-- The particles of the core. -/
def coreOf (s : Sub K D) : List (Particle D) := s.particles.take (min s.nbound 20)

/-- Masses with positions, masses with velocities. -/
def places (env : SinkEnv K D) (ps : List (Particle D)) : List (K × (Fin 3 → K)) := ps.map (fun p => (env.mass p.data, env.pos p.data))
@[inherit_doc places]
def motions (env : SinkEnv K D) (ps : List (Particle D)) : List (K × (Fin 3 → K)) := ps.map (fun p => (env.mass p.data, env.vel p.data))

section Order
variable [LinearOrder K]

instance (sqrt : K → K) (xs vs : List (K × (Fin 3 → K))) (e w : Fin 3 → K) : Decidable (Sunk sqrt xs vs e w) := by
  unfold Sunk; infer_instance

/-- `xs` is where the particles are in free space. Without periodic boundaries this is what the positions say. With them,
the recorded positions are in the box and differ from `xs` by box lengths, and `xs` is less than half a box across. -/
inductive FreeSpace (env : SinkEnv K D) (ps : List (Particle D)) : List (K × (Fin 3 → K)) → Prop
  | plain (h : env.periodic = false) : FreeSpace env ps (places env ps)
  | box (h : env.periodic = true) (qs : List (BoxParticle K)) (hs : places env ps = qs.map (BoxParticle.seen env.boxsize))
      (hc : CompactIn env.boxsize qs) (hb : SeenInBox env.boxsize qs) : FreeSpace env ps (qs.map BoxParticle.free)

/-- `e` leads from the recorded position `y` to `x`, on the shortest way if the box is periodic. -/
def Leads (env : SinkEnv K D) (x y e : Fin 3 → K) : Prop :=
  (env.periodic = false → ∀ j, e j = x j - y j) ∧
  (env.periodic = true → (∀ j, 0 ≤ y j ∧ y j < env.boxsize) ∧ ShortestWay env.boxsize x y e)

/-- The satellite has sunk into the core of the host. -/
def SunkInto (env : SinkEnv K D) (sat : MostBound K) (host : Sub K D) : Prop :=
  ∃ xs e, FreeSpace env (coreOf host) xs ∧ Leads env (massMean xs) sat.pos e ∧
    Sunk env.sqrt xs (motions env (coreOf host)) e (fun j => massMean (motions env (coreOf host)) j - sat.vel j)

/-- A host with a core: more than one bound particle, all of them in its list, with positive masses, and seen in free space. -/
structure HasCore (env : SinkEnv K D) (host : Sub K D) : Prop where
  more : 1 < host.nbound
  listed : host.nbound ≤ host.particles.length
  mass : ∀ p ∈ coreOf host, 0 < env.mass p.data
  free : ∃ xs, FreeSpace env (coreOf host) xs

/-- The configuration is sane: `sqrt` is a square root and the box is not empty. -/
structure Sane (env : SinkEnv K D) : Prop where
  sqrt : IsSqrt env.sqrt
  box : env.periodic = true → 0 < env.boxsize

end Order

section Core
variable {env : SinkEnv K D} {host : Sub K D}

theorem core_loop (hl : host.nbound ≤ host.particles.length) (mass : D → K) (f : D → Fin 3 → K) :
    coreLoop mass f host.particles (if host.nbound > numPartCoreMax then numPartCoreMax else host.nbound) 0
      ⟨0, fun _ => 0, fun _ => 0⟩ = .ok
      ⟨massSum ((coreOf host).map (fun p => (mass p.data, f p.data))),
       fun j => (((coreOf host).map (fun p => (mass p.data, f p.data))).map (fun p => p.1 * p.2 j)).sum,
       fun j => (((coreOf host).map (fun p => (mass p.data, f p.data))).map (fun p => p.1 * (p.2 j * p.2 j))).sum⟩ := by
  have hn : (if host.nbound > numPartCoreMax then numPartCoreMax else host.nbound) = min host.nbound 20 := by
    unfold numPartCoreMax
    split <;> omega
  rw [hn, coreLoop_eq _ _ _ _ _ _ (by omega)]
  simp [coreOf]

variable [LinearOrder K] [IsStrictOrderedRing K]

theorem core_ne (h : HasCore env host) : coreOf host ≠ [] := by
  intro h0
  have : (coreOf host).length = min host.nbound 20 := by
    have := h.listed
    simp [coreOf]; omega
  rw [h0, List.length_nil] at this
  have := h.more
  omega

theorem massSum_motions (h : HasCore env host) : 0 < massSum (motions env (coreOf host)) := by
  apply massSum_pos
  · simpa [motions] using core_ne h
  · intro p hp
    obtain ⟨q, hq, rfl⟩ := List.mem_map.mp hp
    exact h.mass q hq

omit [IsStrictOrderedRing K] in
theorem free_masses {ps : List (Particle D)} {xs : List (K × (Fin 3 → K))} (h : FreeSpace env ps xs) :
    xs.map Prod.fst = ps.map (fun p => env.mass p.data) := by
  cases h with
  | plain h => simp [places]
  | box h qs hs hc hb =>
    have := congrArg (List.map Prod.fst) hs
    simp only [places, List.map_map] at this ⊢
    rw [show (Prod.fst ∘ BoxParticle.free (K := K)) = (Prod.fst ∘ BoxParticle.seen env.boxsize) from rfl, ← this]
    rfl

theorem free_pos (h : HasCore env host) {xs : List (K × (Fin 3 → K))} (hx : FreeSpace env (coreOf host) xs) :
    xs ≠ [] ∧ ∀ p ∈ xs, 0 < p.1 := by
  have h1 := free_masses hx
  constructor
  · rintro rfl
    have := core_ne h
    simp at h1
    exact this h1
  · intro p hp
    have : p.1 ∈ xs.map Prod.fst := List.mem_map.mpr ⟨p, hp, rfl⟩
    rw [h1] at this
    obtain ⟨q, hq, e⟩ := List.mem_map.mp this
    rw [← e]; exact h.mass q hq

/-- C65. The core has the mean velocity and the spread in velocity of its particles. -/
theorem C65_core_velocity (h : HasCore env host) :
    buildVelocity env host = .ok (some (massMean (motions env (coreOf host))), env.sqrt (massVar (motions env (coreOf host)))) := by
  have h1 := h.more
  have hM := massSum_motions h
  unfold buildVelocity
  rw [if_neg (by omega), if_neg (by omega)]
  simp only
  rw [core_loop h.listed, Outcome.bind_ok]
  have := coreSpread_eq (motions env (coreOf host)) hM.ne'
  unfold motions at this ⊢
  rw [this]
  rfl

/-- C65. The core has the mean position of its particles in free space, up to box lengths, and their spread. -/
theorem C65_core_position (hs : Sane env) (h : HasCore env host) {xs : List (K × (Fin 3 → K))}
    (hx : FreeSpace env (coreOf host) xs) :
    ∃ x, buildPosition env host = .ok (some x, env.sqrt (massVar xs)) ∧
      (env.periodic = false → x = massMean xs) ∧
      (env.periodic = true → SameModBox env.boxsize (massMean xs) x ∧ ∀ j, -(env.boxsize / 2) < x j ∧ x j < 3 * env.boxsize / 2) := by
  have h1 := h.more
  have hl := h.listed
  obtain ⟨hne, hm⟩ := free_pos h hx
  have hM := massSum_pos xs hne hm
  obtain ⟨p0, ps, hp⟩ : ∃ p0 ps, host.particles = p0 :: ps := by
    cases hq : host.particles with
    | nil => rw [hq] at hl; simp at hl; omega
    | cons p ps => exact ⟨p, ps, rfl⟩
  have hg : Outcome.get host.particles 0 = .ok p0 := by rw [hp]; rfl
  have hcore : ∃ t, coreOf host = p0 :: t := by
    unfold coreOf
    rw [hp]
    obtain ⟨m, e⟩ : ∃ m, min host.nbound 20 = m + 1 := ⟨min host.nbound 20 - 1, by omega⟩
    rw [e]; exact ⟨ps.take m, rfl⟩
  obtain ⟨t, ht⟩ := hcore
  unfold buildPosition
  rw [if_neg (by omega), hg, Outcome.bind_ok, if_neg (by omega)]
  simp only
  rw [core_loop hl, Outcome.bind_ok]
  cases hx with
  | plain hp =>
    refine ⟨massMean (places env (coreOf host)), ?_, fun _ => rfl, fun h => by simp [hp] at h⟩
    have := coreSpread_eq (places env (coreOf host)) hM.ne'
    simp only [hp, Bool.false_eq_true, if_false]
    unfold places at this ⊢
    rw [this]
    rfl
  | box hp qs hq hc hb =>
    have hB := hs.box hp
    obtain ⟨q0, qt, hqs⟩ : ∃ q0 qt, qs = q0 :: qt := by
      cases qs with
      | nil => simp at hne
      | cons q qs => exact ⟨q, qs, rfl⟩
    have h0 : (env.mass p0.data, env.pos p0.data) = q0.seen env.boxsize := by
      rw [ht, hqs] at hq
      exact (List.cons.inj hq).1
    have hpos0 : env.pos p0.data = (q0.seen env.boxsize).2 := congrArg Prod.snd h0
    -- the differences the code sums are the differences in free space
    have hd : (coreOf host).map (fun p => (env.mass p.data, fun j => if env.periodic then
          nearest env.boxsize (env.pos p.data j - env.pos p0.data j) else env.pos p.data j))
        = (qs.map BoxParticle.free).map (fun p => (p.1, fun j => p.2 j + -(q0.pos j))) := by
      have e1 : (coreOf host).map (fun p => (env.mass p.data, fun j => if env.periodic then
          nearest env.boxsize (env.pos p.data j - env.pos p0.data j) else env.pos p.data j))
          = (places env (coreOf host)).map (fun p => (p.1, fun j => nearest env.boxsize (p.2 j - env.pos p0.data j))) := by
        simp [places, hp]
      rw [e1, hq, List.map_map, List.map_map]
      apply List.map_congr_left
      intro q hqm
      simp only [Function.comp_apply]
      refine Prod.ext rfl ?_
      funext j
      have hq0 : q0 ∈ qs := by rw [hqs]; simp
      have ht := turns_near env.boxsize hB q q0 (hc q hqm q0 hq0) (hb q hqm) (hb q0 hq0) j
      have := nearest_unwrap env.boxsize (q.pos j - q0.pos j) (q.turns j - q0.turns j) hB (hc q hqm q0 hq0 j) ht
      rw [hpos0]
      show nearest env.boxsize (q.pos j + q.turns j * env.boxsize - (q0.pos j + q0.turns j * env.boxsize)) = q.pos j + -q0.pos j
      rw [← sub_eq_add_neg, ← this]
      congr 1
      push_cast
      ring
    have hM' : massSum ((qs.map BoxParticle.free).map (fun p => (p.1, fun j => p.2 j + -(q0.pos j)))) = massSum (qs.map BoxParticle.free) := by
      simp [massSum, Function.comp_def]
    have hv := coreSpread_eq ((qs.map BoxParticle.free).map (fun p => (p.1, fun j => p.2 j + -(q0.pos j)))) (by rw [hM']; exact hM.ne')
    rw [massVar_shift _ hM.ne' (fun j => -(q0.pos j))] at hv
    have hmean : ∀ j, massMean ((qs.map BoxParticle.free).map (fun p => (p.1, fun j => p.2 j + -(q0.pos j)))) j
        = massMean (qs.map BoxParticle.free) j - q0.pos j := by
      intro j
      rw [massMean_shift _ hM.ne' (fun j => -(q0.pos j)) j]
      ring
    refine ⟨fun j => massMean (qs.map BoxParticle.free) j + q0.turns j * env.boxsize, ?_, fun h => by simp [hp] at h, fun _ => ⟨?_, ?_⟩⟩
    · rw [hd, hv]
      simp only [hp, if_true]
      congr 2
      congr 1
      funext j
      have := hmean j
      rw [massMean] at this
      rw [this, hpos0]
      show _ + (q0.pos j + q0.turns j * env.boxsize) = _
      ring
    · intro j
      exact ⟨q0.turns j, rfl⟩
    · intro j
      have hq0 : q0 ∈ qs := by rw [hqs]; simp
      have := mean_near (qs.map BoxParticle.free) hne hm j (q0.pos j) (env.boxsize / 2) (by
        intro p hp
        obtain ⟨q, hq, rfl⟩ := List.mem_map.mp hp
        exact hc q hq q0 hq0 j)
      obtain ⟨a, b⟩ := abs_lt.mp this
      obtain ⟨c, d⟩ := hb q0 hq0 j
      simp only [BoxParticle.seen] at c d
      constructor <;> linarith

/-- A way always exists, and all ways are of one length. -/
theorem leads_exists (hs : Sane env) {x y : Fin 3 → K} (hx : env.periodic = true → ∀ j, -(env.boxsize / 2) < x j ∧ x j < 3 * env.boxsize / 2)
    (hy : env.periodic = true → ∀ j, 0 ≤ y j ∧ y j < env.boxsize) :
    ∃ e, Leads env x y e ∧ norm2 e = periodicDistance2 env.periodic env.boxsize x y := by
  refine ⟨fun j => if env.periodic then nearest env.boxsize (x j - y j) else x j - y j, ⟨fun h j => by simp [h], fun h => ⟨hy h, fun j => ?_⟩⟩, rfl⟩
  have hB := hs.box h
  have a := hx h j
  have b := hy h j
  simp only [h, if_true]
  exact nearest_shortest env.boxsize (x j - y j) (abs_le.mpr ⟨by linarith, by linarith⟩)

theorem leads_unique (hs : Sane env) {x x' y e e' : Fin 3 → K}
    (hx : env.periodic = false → x' = x) (hx' : env.periodic = true → SameModBox env.boxsize x x')
    (h : Leads env x y e) (h' : Leads env x' y e') : norm2 e = norm2 e' := by
  cases hp : env.periodic with
  | false =>
    rw [hx hp] at h'
    have : e = e' := by funext j; rw [h.1 hp j, h'.1 hp j]
    rw [this]
  | true =>
    have hB := hs.box hp
    have key : ∀ j, e j * e j = e' j * e' j := by
      intro j
      obtain ⟨a, k, ha⟩ := (h.2 hp).2 j
      obtain ⟨b, l, hb⟩ := (h'.2 hp).2 j
      obtain ⟨m, hm⟩ := hx' hp j
      refine shortest_sq env.boxsize (e j) (e' j) hB a b (k - l - m) ?_
      rw [ha, hb, hm]; push_cast; ring
    unfold norm2
    rw [key 0, key 1, key 2]

/-- C65. The test of the code decides whether the satellite has sunk into the core of the host, whichever
way the core is laid out in free space and whichever shortest way is taken. -/
theorem C65_criterion (hs : Sane env) (h : HasCore env host) (sat : MostBound K)
    (hy : env.periodic = true → ∀ j, 0 ≤ sat.pos j ∧ sat.pos j < env.boxsize) :
    (sinkTest env sat host = .ok true ∨ sinkTest env sat host = .ok false) ∧
    (∃ xs e, FreeSpace env (coreOf host) xs ∧ Leads env (massMean xs) sat.pos e) ∧
    ∀ xs e, FreeSpace env (coreOf host) xs → Leads env (massMean xs) sat.pos e →
      (sinkTest env sat host = .ok true ↔
        Sunk env.sqrt xs (motions env (coreOf host)) e (fun j => massMean (motions env (coreOf host)) j - sat.vel j)) := by
  have hv0 : 0 ≤ massVar (motions env (coreOf host)) := massVar_nonneg _ (by
    intro p hp
    obtain ⟨q, hq, rfl⟩ := List.mem_map.mp hp
    exact h.mass q hq)
  have main : ∀ xs, FreeSpace env (coreOf host) xs → ∃ x e0,
      (env.periodic = false → x = massMean xs) ∧ (env.periodic = true → SameModBox env.boxsize (massMean xs) x) ∧
      Leads env x sat.pos e0 ∧
      sinkTest env sat host = .ok (decide (Sunk env.sqrt xs (motions env (coreOf host)) e0
        (fun j => massMean (motions env (coreOf host)) j - sat.vel j))) := by
    intro xs hx
    obtain ⟨x, hb, hx1, hx2⟩ := C65_core_position hs h hx
    obtain ⟨e0, he0, hn⟩ := leads_exists hs (x := x) (y := sat.pos) (fun hp => (hx2 hp).2) hy
    refine ⟨x, e0, hx1, fun hp => (hx2 hp).1, he0, ?_⟩
    obtain ⟨hne, hm⟩ := free_pos h hx
    have hr0 := massVar_nonneg xs hm
    unfold sinkTest buildCore
    rw [hb, Outcome.bind_ok, C65_core_velocity h, Outcome.bind_ok, Outcome.bind_ok]
    unfold sinkDistance
    simp only [sqrt_eq_zero_iff hs.sqrt hr0, sqrt_eq_zero_iff hs.sqrt hv0]
    have hw : periodicDistance2 false env.boxsize (massMean (motions env (coreOf host))) sat.vel
        = norm2 (fun j => massMean (motions env (coreOf host)) j - sat.vel j) := rfl
    rw [hw, ← hn]
    unfold Sunk
    by_cases h1 : massVar xs = 0
    · simp [h1, belowCrit, Outcome.bind_ok]
    · by_cases h2 : massVar (motions env (coreOf host)) = 0
      · simp [h2, belowCrit, Outcome.bind_ok]
      · simp [h1, h2, belowCrit, Outcome.bind_ok]
  refine ⟨?_, ?_, ?_⟩
  · obtain ⟨xs, hx⟩ := h.free
    obtain ⟨x, e0, _, _, _, e⟩ := main xs hx
    rw [e]
    by_cases hS : Sunk env.sqrt xs (motions env (coreOf host)) e0 (fun j => massMean (motions env (coreOf host)) j - sat.vel j)
    · left; simp [hS]
    · right; simp [hS]
  · obtain ⟨xs, hx⟩ := h.free
    obtain ⟨x, e0, h1, h2, h3, _⟩ := main xs hx
    refine ⟨xs, e0, hx, fun hp => ?_, fun hp => ⟨hy hp, ?_⟩⟩
    · rw [← h1 hp]; exact h3.1 hp
    · intro j
      obtain ⟨a, k, hk⟩ := (h3.2 hp).2 j
      obtain ⟨m, hm⟩ := h2 hp j
      exact ⟨a, k + m, by rw [hk, hm]; push_cast; ring⟩
  · intro xs e hx he
    obtain ⟨x, e0, h1, h2, h3, h4⟩ := main xs hx
    have hn : norm2 e = norm2 e0 := leads_unique hs h1 h2 he h3
    have hS : ∀ w, Sunk env.sqrt xs (motions env (coreOf host)) e w ↔ Sunk env.sqrt xs (motions env (coreOf host)) e0 w := by
      intro w; unfold Sunk; rw [hn]
    rw [h4, hS, Outcome.ok.injEq, decide_eq_true_iff]

/-- C65, in one formula. -/
theorem C65_test_is_criterion (hs : Sane env) (h : HasCore env host) (sat : MostBound K)
    (hy : env.periodic = true → ∀ j, 0 ≤ sat.pos j ∧ sat.pos j < env.boxsize) :
    (sinkTest env sat host = .ok true ↔ SunkInto env sat host) ∧ (sinkTest env sat host = .ok false ↔ ¬ SunkInto env sat host) := by
  obtain ⟨h1, ⟨xs, e, hx, he⟩, h3⟩ := C65_criterion hs h sat hy
  have key : sinkTest env sat host = .ok true ↔ SunkInto env sat host := by
    constructor
    · intro ht
      exact ⟨xs, e, hx, he, (h3 xs e hx he).mp ht⟩
    · rintro ⟨xs', e', hx', he', hk⟩
      exact (h3 xs' e' hx' he').mpr hk
  refine ⟨key, ?_⟩
  rw [← key]
  rcases h1 with h1 | h1 <;> rw [h1] <;> simp

/-- C65. The spread is never negative, so the square root is always taken of a non-negative number, and it vanishes
only if all particles of the core coincide. -/
theorem C65_spread (h : HasCore env host) {xs : List (K × (Fin 3 → K))} (hx : FreeSpace env (coreOf host) xs) :
    0 ≤ massVar xs ∧ (massVar xs = 0 ↔ ∀ p ∈ xs, ∀ q ∈ xs, p.2 = q.2) := by
  obtain ⟨hne, hm⟩ := free_pos h hx
  exact ⟨massVar_nonneg xs hm, massVar_eq_zero xs hne hm⟩

/-- `x'` is `x` moved by `c`: exactly, or up to box lengths if the box is periodic. -/
def Moved (env : SinkEnv K D) (c x x' : Fin 3 → K) : Prop :=
  (env.periodic = false → ∀ j, x' j = x j + c j) ∧ (env.periodic = true → SameModBox env.boxsize (fun j => x j + c j) x')

omit [IsStrictOrderedRing K] in
theorem places_moved {env env' : SinkEnv K D} {c : Fin 3 → K} (hB : env'.boxsize = env.boxsize) (hp : env.periodic = true) :
    ∀ {ps ps' : List (Particle D)}, List.Forall₂ (fun p p' => env'.mass p'.data = env.mass p.data ∧
      Moved env c (env.pos p.data) (env'.pos p'.data)) ps ps' → ∀ qs : List (BoxParticle K),
      places env ps = qs.map (BoxParticle.seen env.boxsize) →
      ∃ qs' : List (BoxParticle K), places env' ps' = qs'.map (BoxParticle.seen env'.boxsize) ∧
        List.Forall₂ (fun q q' => q'.mass = q.mass ∧ ∀ j, q'.pos j = q.pos j + c j) qs qs' := by
  intro ps ps' h
  induction h with
  | nil =>
    intro qs hq
    have : qs = [] := by cases qs with
      | nil => rfl
      | cons q qs => simp [places] at hq
    subst this
    exact ⟨[], rfl, .nil⟩
  | @cons p p' ps ps' h1 h2 ih =>
    intro qs hq
    cases qs with
    | nil => simp [places] at hq
    | cons q qs =>
      obtain ⟨hq1, hq2⟩ := List.cons.inj hq
      obtain ⟨qs', e1, e2⟩ := ih qs hq2
      choose k hk using h1.2.2 hp
      have hm : env.mass p.data = q.mass := congrArg Prod.fst hq1
      have hx : ∀ j, env.pos p.data j = q.pos j + q.turns j * env.boxsize := fun j => congrFun (congrArg Prod.snd hq1) j
      refine ⟨⟨q.mass, fun j => q.pos j + c j, fun j => q.turns j + k j⟩ :: qs', ?_, .cons ⟨rfl, fun _ => rfl⟩ e2⟩
      refine List.cons_eq_cons.mpr ⟨Prod.ext (h1.1.trans hm) ?_, e1⟩
      funext j
      show env'.pos p'.data j = q.pos j + c j + ((q.turns j + k j : ℤ) : K) * env'.boxsize
      rw [hk j, hB]
      simp only [hx j]
      push_cast
      ring

theorem free_moved {env env' : SinkEnv K D} {c : Fin 3 → K} (hB : env'.boxsize = env.boxsize) (hP : env'.periodic = env.periodic)
    {ps ps' : List (Particle D)} (h : List.Forall₂ (fun p p' => env'.mass p'.data = env.mass p.data ∧
      Moved env c (env.pos p.data) (env'.pos p'.data)) ps ps')
    (hin : env.periodic = true → ∀ p ∈ ps', ∀ j, 0 ≤ env'.pos p.data j ∧ env'.pos p.data j < env.boxsize)
    {xs : List (K × (Fin 3 → K))} (hx : FreeSpace env ps xs) :
    FreeSpace env' ps' (xs.map (fun p => (p.1, fun j => p.2 j + c j))) := by
  cases hx with
  | plain hp =>
    have : (places env ps).map (fun p => (p.1, fun j => p.2 j + c j)) = places env' ps' := by
      clear hin
      induction h with
      | nil => rfl
      | cons h1 h2 ih =>
        refine List.cons_eq_cons.mpr ⟨Prod.ext h1.1.symm ?_, ih⟩
        funext j
        exact (h1.2.1 hp j).symm
    rw [this]
    exact .plain (by rw [hP, hp])
  | box hp qs hs hc hb =>
    obtain ⟨qs', e1, e2⟩ := places_moved hB hp h qs hs
    have e3 : (qs.map BoxParticle.free).map (fun p => (p.1, fun j => p.2 j + c j)) = qs'.map BoxParticle.free := by
      clear e1 hb hc hs
      induction e2 with
      | nil => rfl
      | cons h1 h2 ih =>
        refine List.cons_eq_cons.mpr ⟨Prod.ext h1.1.symm ?_, ih⟩
        funext j
        exact (h1.2 j).symm
    rw [e3]
    have hmem : ∀ q' ∈ qs', ∃ q ∈ qs, ∀ j, q'.pos j = q.pos j + c j := by
      clear e1 hb hc hs e3
      induction e2 with
      | nil => simp
      | cons h1 h2 ih =>
        intro q' hq'
        rcases List.mem_cons.mp hq' with rfl | hq'
        · exact ⟨_, by simp, h1.2⟩
        · obtain ⟨q, hq, hh⟩ := ih q' hq'
          exact ⟨q, by simp [hq], hh⟩
    refine .box (by rw [hP, hp]) qs' e1 ?_ ?_
    · intro a ha b hb j
      obtain ⟨a0, ha0, ea⟩ := hmem a ha
      obtain ⟨b0, hb0, eb⟩ := hmem b hb
      rw [ea j, eb j, hB, show a0.pos j + c j - (b0.pos j + c j) = a0.pos j - b0.pos j by ring]
      exact hc a0 ha0 b0 hb0 j
    · intro a ha j
      have : a.seen env'.boxsize ∈ places env' ps' := by rw [e1]; exact List.mem_map.mpr ⟨a, ha, rfl⟩
      obtain ⟨p, hp', e⟩ := List.mem_map.mp this
      rw [← e, hB]
      exact hin hp p hp' j

/-- C65. The decision does not depend on the frame: if all positions are moved by `c` (and put back into the box, if it
is periodic), and all velocities changed by `u`, the answer is the same. -/
theorem C65_same_in_every_frame {env env' : SinkEnv K D} (hs : Sane env) (hq : env'.sqrt = env.sqrt)
    (hP : env'.periodic = env.periodic) (hB : env'.boxsize = env.boxsize) {host host' : Sub K D} {sat sat' : MostBound K} (c u : Fin 3 → K)
    (h : HasCore env host) (h1' : 1 < host'.nbound) (hl' : host'.nbound ≤ host'.particles.length)
    (hcore : List.Forall₂ (fun p p' => env'.mass p'.data = env.mass p.data ∧ Moved env c (env.pos p.data) (env'.pos p'.data) ∧
      ∀ j, env'.vel p'.data j = env.vel p.data j + u j) (coreOf host) (coreOf host'))
    (hsat : Moved env c sat.pos sat'.pos) (hvel : ∀ j, sat'.vel j = sat.vel j + u j)
    (hin : env.periodic = true → (∀ p ∈ coreOf host', ∀ j, 0 ≤ env'.pos p.data j ∧ env'.pos p.data j < env.boxsize) ∧
      (∀ j, 0 ≤ sat.pos j ∧ sat.pos j < env.boxsize) ∧ ∀ j, 0 ≤ sat'.pos j ∧ sat'.pos j < env.boxsize) :
    sinkTest env' sat' host' = sinkTest env sat host := by
  have hs' : Sane env' := ⟨by rw [hq]; exact hs.sqrt, by rw [hP, hB]; exact hs.box⟩
  have hcp : List.Forall₂ (fun p p' => env'.mass p'.data = env.mass p.data ∧ Moved env c (env.pos p.data) (env'.pos p'.data))
      (coreOf host) (coreOf host') := hcore.imp (fun _ _ h => ⟨h.1, h.2.1⟩)
  have hfree : ∀ {xs : List (K × (Fin 3 → K))}, FreeSpace env (coreOf host) xs →
      FreeSpace env' (coreOf host') (xs.map (fun p => (p.1, fun j => p.2 j + c j))) :=
    fun hx => free_moved hB hP hcp (fun hp => (hin hp).1) hx
  have hmass : ∀ p ∈ coreOf host', 0 < env'.mass p.data := by
    have hm := h.mass
    clear hfree hcp hin h hl' h1'
    generalize coreOf host = a at *
    generalize coreOf host' = b at *
    induction hcore with
    | nil => simp
    | cons h1 h2 ih =>
      intro p hp
      rcases List.mem_cons.mp hp with rfl | hp
      · rw [h1.1]; exact hm _ (by simp)
      · exact ih (fun p hp => hm p (by simp [hp])) p hp
  have h' : HasCore env' host' := ⟨h1', hl', hmass, by obtain ⟨xs, hx⟩ := h.free; exact ⟨_, hfree hx⟩⟩
  obtain ⟨a1, ⟨xs, e, hx, he⟩, a3⟩ := C65_criterion hs h sat (fun hp => (hin hp).2.1)
  obtain ⟨b1, -, b3⟩ := C65_criterion hs' h' sat' (fun hp => by rw [hB]; exact (hin (hP ▸ hp)).2.2)
  obtain ⟨hne, hm⟩ := free_pos h hx
  have hM := massSum_pos xs hne hm
  have he' : Leads env' (massMean (xs.map (fun p => (p.1, fun j => p.2 j + c j)))) sat'.pos e := by
    refine ⟨fun hp j => ?_, fun hp => ⟨fun j => by rw [hB]; exact (hin (hP ▸ hp)).2.2 j, fun j => ?_⟩⟩
    · rw [massMean_shift xs hM.ne' c j, hsat.1 (hP ▸ hp) j, he.1 (hP ▸ hp) j]; ring
    · obtain ⟨i1, k, hk⟩ := (he.2 (hP ▸ hp)).2 j
      obtain ⟨m, hm⟩ := hsat.2 (hP ▸ hp) j
      rw [hB]
      refine ⟨i1, k + m, ?_⟩
      rw [massMean_shift xs hM.ne' c j, hm, hk]
      push_cast; ring
  have hmot : motions env' (coreOf host') = (motions env (coreOf host)).map (fun p => (p.1, fun j => p.2 j + u j)) := by
    clear a1 a3 b1 b3 h' hmass hfree hcp hin hx h hl' h1'
    generalize coreOf host = a at *
    generalize coreOf host' = b at *
    induction hcore with
    | nil => rfl
    | cons h1 h2 ih =>
      refine List.cons_eq_cons.mpr ⟨Prod.ext h1.1 ?_, ih⟩
      funext j
      exact h1.2.2 j
  have hMv := massSum_motions h
  have key : sinkTest env' sat' host' = .ok true ↔ sinkTest env sat host = .ok true := by
    rw [a3 xs e hx he, b3 _ e (hfree hx) he']
    unfold Sunk
    rw [hmot, massVar_shift xs hM.ne', massVar_shift _ hMv.ne', hq]
    have : (fun j => massMean ((motions env (coreOf host)).map (fun p => (p.1, fun j => p.2 j + u j))) j - sat'.vel j)
        = (fun j => massMean (motions env (coreOf host)) j - sat.vel j) := by
      funext j
      rw [massMean_shift _ hMv.ne' u j, hvel j]; ring
    rw [this]
  rcases a1 with a1 | a1 <;> rcases b1 with b1 | b1 <;> rw [a1, b1] at key ⊢ <;> simp at key

/-- C65, a limit of the code: a host whose core particles share one position, or one velocity, never absorbs anything, not
even a satellite at the very same position with the very same velocity. -/
theorem C65_no_spread_no_sink (hs : Sane env) (h : HasCore env host) (sat : MostBound K)
    (hy : env.periodic = true → ∀ j, 0 ≤ sat.pos j ∧ sat.pos j < env.boxsize)
    (hz : (∀ p ∈ coreOf host, ∀ q ∈ coreOf host, env.vel p.data = env.vel q.data) ∨
      ∃ xs, FreeSpace env (coreOf host) xs ∧ ∀ p ∈ xs, ∀ q ∈ xs, p.2 = q.2) :
    sinkTest env sat host = .ok false := by
  obtain ⟨a1, ⟨xs, e, hx, he⟩, a3⟩ := C65_criterion hs h sat hy
  refine a1.resolve_left (fun ht => ?_)
  rcases hz with hz | ⟨xs', hx', hz⟩
  · refine ((a3 xs e hx he).mp ht).2.1 ((massVar_eq_zero _ ?_ ?_).mpr ?_)
    · simpa [motions] using core_ne h
    · intro p hp
      obtain ⟨q, hq, rfl⟩ := List.mem_map.mp hp
      exact h.mass q hq
    · intro p hp q hq
      obtain ⟨p', hp', rfl⟩ := List.mem_map.mp hp
      obtain ⟨q', hq', rfl⟩ := List.mem_map.mp hq
      exact hz p' hp' q' hq'
  · obtain ⟨xs'', e'', hx'', he'', hS⟩ := (C65_test_is_criterion hs h sat hy).1.mp ht
    obtain ⟨x, eb, -, -⟩ := C65_core_position hs h hx'
    obtain ⟨x'', eb'', -, -⟩ := C65_core_position hs h hx''
    rw [eb] at eb''
    have h2 : env.sqrt (massVar xs') = env.sqrt (massVar xs'') := (Prod.mk.inj (Outcome.ok.inj eb'')).2
    have hz0 := (C65_spread h hx').2.mpr hz
    have h3 := (sqrt_eq_zero_iff hs.sqrt (C65_spread h hx').1).mpr hz0
    rw [h2] at h3
    exact hS.1 ((sqrt_eq_zero_iff hs.sqrt (C65_spread h hx'').1).mp h3)

end Core

section Walk
variable [LinearOrder K]

/-- The first of the hosts of `i`, going outwards, that has the property. -/
inductive FirstHost (host : Nat → Option Nat) (good : Nat → Prop) : Nat → Option Nat → Prop
  | top {i} (h : host i = none) : FirstHost host good i none
  | here {i p} (h : host i = some p) (g : good p) : FirstHost host good i (some p)
  | up {i p r} (h : host i = some p) (g : ¬ good p) (k : FirstHost host good p r) : FirstHost host good i r

/-- The host recorded for a subhalo: `-1` for none. -/
def hostIn (hosts : List Int) (i : Nat) : Option Nat :=
  match hosts[i]? with
  | some h => if h < 0 then none else some h.toNat
  | none => none

variable [IsStrictOrderedRing K] {env : SinkEnv K D}

omit [IsStrictOrderedRing K] in
theorem fillCores_ok (subs : List (Sub K D)) (h : ∀ s ∈ subs, ∃ c, buildCore env s = .ok c) :
    ∃ cs, fillCores env subs = .ok cs ∧ ∀ (i : Nat) (s : Sub K D), subs[i]? = some s → ∃ c, cs[i]? = some c ∧ buildCore env s = .ok c := by
  induction subs with
  | nil => exact ⟨[], rfl, by simp⟩
  | cons s ss ih =>
    obtain ⟨cs, e1, h1⟩ := ih (fun s hs => h s (by simp [hs]))
    obtain ⟨c, e2⟩ := h s (by simp)
    refine ⟨c :: cs, by rw [fillCores, e2, Outcome.bind_ok, e1, Outcome.bind_ok], ?_⟩
    intro i t ht
    cases i with
    | zero => simp at ht; subst ht; exact ⟨c, rfl, e2⟩
    | succ i => exact h1 i t (by simpa using ht)

theorem buildCore_ok (hs : Sane env) {s : Sub K D} (hl : s.nbound ≤ s.particles.length) (h : 1 < s.nbound → HasCore env s) :
    ∃ c, buildCore env s = .ok c := by
  by_cases h1 : 1 < s.nbound
  · obtain ⟨xs, hx⟩ := (h h1).free
    obtain ⟨x, e, _⟩ := C65_core_position hs (h h1) hx
    unfold buildCore
    rw [e, Outcome.bind_ok, C65_core_velocity (h h1), Outcome.bind_ok]
    exact ⟨_, rfl⟩
  · by_cases h0 : s.nbound = 0
    · unfold buildCore buildPosition buildVelocity
      rw [if_pos h0, if_pos h0]
      exact ⟨_, rfl⟩
    · have h2 : s.nbound = 1 := by omega
      unfold buildCore buildPosition buildVelocity
      rw [if_neg h0, if_neg h0, if_pos h2, Outcome.get_of_lt (by omega : 0 < s.particles.length)]
      simp only [Outcome.bind_ok, h2, if_true]
      exact ⟨_, rfl⟩

open Classical in
/-- The oracle of the model of merging, replaced by the criterion. -/
noncomputable def criterion (env : SinkEnv K D) (mb : List (MostBound K)) (subs : List (Sub K D)) (i p : Nat) : Bool :=
  decide (∃ m q, mb[i]? = some m ∧ subs[p]? = some q ∧ SunkInto env m q)

/-- The subhaloes the criterion is applied to: the most-bound coordinates are in the box, and every subhalo with more than one bound particle
has a core. -/
structure Measured (env : SinkEnv K D) (mb : List (MostBound K)) (subs : List (Sub K D)) : Prop where
  length : mb.length = subs.length
  listed : ∀ s ∈ subs, s.nbound ≤ s.particles.length
  cores : ∀ s ∈ subs, 1 < s.nbound → HasCore env s
  inside : env.periodic = true → ∀ m ∈ mb, ∀ j, 0 ≤ m.pos j ∧ m.pos j < env.boxsize

omit [IsStrictOrderedRing K] in
theorem criterion_iff {mb : List (MostBound K)} {subs : List (Sub K D)} {i p : Nat} {m : MostBound K} {q : Sub K D}
    (hi : mb[i]? = some m) (hp : subs[p]? = some q) : criterion env mb subs i p = true ↔ SunkInto env m q := by
  unfold criterion
  rw [@decide_eq_true_iff _ (Classical.propDecidable _)]
  constructor
  · rintro ⟨m', q', a, b, c⟩
    rw [hi] at a; rw [hp] at b
    cases a; cases b; exact c
  · intro h; exact ⟨m, q, hi, hp, h⟩

theorem findSinkC_eq (hs : Sane env) {mb : List (MostBound K)} {subs : List (Sub K D)} (hm : Measured env mb subs)
    {cores : List (Core K)} (hc : ∀ (i : Nat) (s : Sub K D), subs[i]? = some s → ∃ c, cores[i]? = some c ∧ buildCore env s = .ok c)
    (hosts : List Int) (i : Nat) (m : MostBound K) (hi : mb[i]? = some m) (fuel : Nat) (h : Int) :
    findSinkC env m cores subs hosts fuel h = findSink (criterion env mb subs) subs hosts i fuel h := by
  induction fuel generalizing h with
  | zero => rfl
  | succ fuel ih =>
    rw [findSinkC, findSink]
    split
    · rfl
    · cases ht : subs[h.toNat]? with
      | none => simp [Outcome.get, ht]
      | some t =>
        have hg : Outcome.get subs h.toNat = .ok t := by simp [Outcome.get, ht]
        obtain ⟨c, hc1, hc2⟩ := hc _ _ ht
        have hg2 : Outcome.get cores h.toNat = .ok c := by simp [Outcome.get, hc1]
        rw [hg, Outcome.bind_ok, Outcome.bind_ok]
        by_cases h1 : 1 < t.nbound
        · have hk := hm.cores t (List.mem_of_getElem? ht) h1
          obtain ⟨k1, k2⟩ := C65_test_is_criterion hs hk m (fun hp => hm.inside hp m (List.mem_of_getElem? hi))
          have hcr := criterion_iff (env := env) hi ht
          have hst : sinkTest env m t = (do let d ← sinkDistance env m c; .ok (belowCrit d)) := by
            unfold sinkTest; rw [hc2, Outcome.bind_ok]
          simp only [h1, if_true, true_and]
          rw [hg2, Outcome.bind_ok]
          cases hd : sinkDistance env m c with
          | ok d =>
            rw [hd, Outcome.bind_ok] at hst
            rw [Outcome.bind_ok, Outcome.bind_ok]
            by_cases hS : SunkInto env m t
            · have hb : belowCrit d = true := by
                have := hst.symm.trans (k1.mpr hS)
                exact Outcome.ok.inj this
              rw [if_pos hb, if_pos (hcr.mpr hS)]
            · have hb : belowCrit d = false := by
                have := hst.symm.trans (k2.mpr hS)
                exact Outcome.ok.inj this
              rw [if_neg (by simp [hb]), if_neg (fun h => hS (hcr.mp h))]
              cases Outcome.get hosts h.toNat with
              | ok h' => rw [Outcome.bind_ok, Outcome.bind_ok]; exact ih h'
              | _ => rfl
          | _ =>
            rw [hd] at hst
            by_cases hS : SunkInto env m t
            · have := hst.symm.trans (k1.mpr hS)
              simp at this
            · have := hst.symm.trans (k2.mpr hS)
              simp at this
        · simp only [h1, if_false, false_and]
          rw [Outcome.bind_ok, if_neg (by simp)]
          cases Outcome.get hosts h.toNat with
          | ok h' => rw [Outcome.bind_ok, Outcome.bind_ok]; exact ih h'
          | _ => rfl

theorem trapsOfC_eq (hs : Sane env) {mb : List (MostBound K)} {subs : List (Sub K D)} (hm : Measured env mb subs)
    {cores : List (Core K)} (hc : ∀ (i : Nat) (s : Sub K D), subs[i]? = some s → ∃ c, cores[i]? = some c ∧ buildCore env s = .ok c)
    (hosts : List Int) (fuel : Nat) (is : List Nat) :
    trapsOfC env mb cores fuel subs hosts is = trapsOf (criterion env mb subs) fuel subs hosts is := by
  induction is with
  | nil => rfl
  | cons i is ih =>
    rw [trapsOfC, trapsOf, ih]
    congr 1
    unfold trapOfC trapOf
    cases hi : subs[i]? with
    | none => simp [Outcome.get, hi]
    | some s =>
      have hg : Outcome.get subs i = .ok s := by simp [Outcome.get, hi]
      rw [hg, Outcome.bind_ok, Outcome.bind_ok]
      split
      · rfl
      · have hlt : i < mb.length := by
          rw [hm.length]; exact (List.getElem?_eq_some_iff.mp hi).1
        rw [Outcome.get_of_lt hlt, Outcome.bind_ok]
        cases Outcome.get hosts i with
        | ok h =>
          rw [Outcome.bind_ok, Outcome.bind_ok]
          exact findSinkC_eq hs hm hc hosts i _ (List.getElem?_eq_getElem hlt) fuel h
        | _ => rfl

/-- C65. Detecting mergers with the cores computed is detecting mergers with the criterion as oracle: what is proved of
runs for every oracle holds of runs with this one. -/
theorem C65_oracle (hs : Sane env) {mb : List (MostBound K)} {subs : List (Sub K D)} (hm : Measured env mb subs)
    (snap : Int) (fuel : Nat) (hosts : List Int) :
    detectTrapsC env mb snap fuel hosts subs = detectTraps (criterion env mb subs) snap fuel hosts subs := by
  obtain ⟨cs, e, hc⟩ := fillCores_ok subs (fun s h => buildCore_ok hs (hm.listed s h) (hm.cores s h))
  unfold detectTrapsC detectTraps
  rw [e, Outcome.bind_ok, trapsOfC_eq hs hm hc]

omit [Field K] [LinearOrder K] [IsStrictOrderedRing K] in
theorem findSink_first (sunk : Nat → Nat → Bool) (subs : List (Sub K D)) (hosts : List Int) (hlen : hosts.length = subs.length)
    (hr : ∀ h ∈ hosts, h < subs.length) (height : Nat → Nat) (hh : ∀ i p, hostIn hosts i = some p → height p < height i)
    (i fuel k : Nat) (hk : k < subs.length) (hf : height k ≤ fuel) :
    ∃ r h, hosts[k]? = some h ∧ findSink sunk subs hosts i (fuel + 1) h = .ok r ∧
      FirstHost (hostIn hosts) (fun p => ∃ q, subs[p]? = some q ∧ 1 < q.nbound ∧ sunk i p = true) k r := by
  induction fuel generalizing k with
  | zero =>
    have hkl : k < hosts.length := by omega
    refine ⟨none, hosts[k], List.getElem?_eq_getElem hkl, ?_⟩
    by_cases hn : hosts[k] < 0
    · exact ⟨by rw [findSink, if_pos hn], .top (by simp [hostIn, hkl, hn])⟩
    · have := hh k hosts[k].toNat (by simp [hostIn, hkl, hn])
      omega
  | succ fuel ih =>
    have hkl : k < hosts.length := by omega
    by_cases hn : hosts[k] < 0
    · exact ⟨none, hosts[k], List.getElem?_eq_getElem hkl, by rw [findSink, if_pos hn], .top (by simp [hostIn, hkl, hn])⟩
    · have hp : hostIn hosts k = some hosts[k].toNat := by simp [hostIn, hkl, hn]
      have h1 := hh k _ hp
      have hlt : hosts[k].toNat < subs.length := by
        have := hr _ (List.getElem_mem hkl)
        omega
      obtain ⟨r, h', e1, e2, e3⟩ := ih hosts[k].toNat hlt (by omega)
      by_cases hg : 1 < (subs[hosts[k].toNat]).nbound ∧ sunk i hosts[k].toNat = true
      · refine ⟨some hosts[k].toNat, hosts[k], List.getElem?_eq_getElem hkl, ?_, .here hp ⟨_, List.getElem?_eq_getElem hlt, hg⟩⟩
        rw [findSink, if_neg hn, Outcome.get_of_lt hlt, Outcome.bind_ok, if_pos hg]
      · refine ⟨r, hosts[k], List.getElem?_eq_getElem hkl, ?_, .up hp ?_ e3⟩
        · rw [findSink, if_neg hn, Outcome.get_of_lt hlt, Outcome.bind_ok, if_neg hg]
          have : Outcome.get hosts hosts[k].toNat = .ok h' := by simp [Outcome.get, e1]
          rw [this, Outcome.bind_ok, e2]
        · rintro ⟨q, hq, hq2⟩
          rw [List.getElem?_eq_getElem hlt] at hq
          cases hq
          exact hg hq2

/-- What the sink of a subhalo becomes. -/
def afterTraps (snap : Int) (s : Sub K D) : Option Nat → Sub K D
  | none => s
  | some p => { s with sinkTrackId := (p : Int), snapSink := snap }

/-- C65. For every state with cores and every assignment of hosts without cycles, detection succeeds. A subhalo that was
trapped before is unchanged. Any other is marked with the first of its hosts, going outwards, that is no orphan and into
whose core it has sunk, and is unchanged if there is none. The hosts to be unbound again are those that received a
subhalo that is no orphan. -/
theorem C65_first_host (hs : Sane env) {mb : List (MostBound K)} {subs : List (Sub K D)} (hm : Measured env mb subs)
    (snap : Int) (hosts : List Int) (hlen : hosts.length = subs.length) (hr : ∀ h ∈ hosts, h < subs.length)
    (height : Nat → Nat) (hh : ∀ i p, hostIn hosts i = some p → height p < height i) (fuel : Nat) (hf : ∀ i, i < subs.length → height i < fuel) :
    ∃ (found : Nat → Option Nat) (subs' : List (Sub K D)) (merged : List Nat),
      detectTrapsC env mb snap fuel hosts subs = .ok (subs', merged) ∧ subs'.length = subs.length ∧
      (∀ i s, subs[i]? = some s → subs'[i]? = some (afterTraps snap s (found i)) ∧
        (s.sinkTrackId ≠ nullTrack → found i = none) ∧
        (s.sinkTrackId = nullTrack → ∃ m, mb[i]? = some m ∧
          FirstHost (hostIn hosts) (fun p => ∃ q, subs[p]? = some q ∧ 1 < q.nbound ∧ SunkInto env m q) i (found i))) ∧
      ∀ p, p ∈ merged ↔ ∃ i s, subs[i]? = some s ∧ 1 < s.nbound ∧ found i = some p := by
  rw [C65_oracle hs hm]
  -- the sink of one subhalo
  have hone : ∀ i, ∃ r, ∀ s, subs[i]? = some s → trapOf (criterion env mb subs) fuel subs hosts i = .ok r ∧
      (s.sinkTrackId ≠ nullTrack → r = none) ∧
      (s.sinkTrackId = nullTrack → ∃ m, mb[i]? = some m ∧
          FirstHost (hostIn hosts) (fun p => ∃ q, subs[p]? = some q ∧ 1 < q.nbound ∧ SunkInto env m q) i r) := by
    intro i
    cases hi : subs[i]? with
    | none => exact ⟨none, by simp⟩
    | some s =>
      have hlt := (List.getElem?_eq_some_iff.mp hi).1
      have hg : Outcome.get subs i = .ok s := by simp [Outcome.get, hi]
      by_cases ht : s.sinkTrackId = nullTrack
      · obtain ⟨f, rfl⟩ : ∃ f, fuel = f + 1 := ⟨fuel - 1, by have := hf i hlt; omega⟩
        obtain ⟨r, h, e1, e2, e3⟩ := findSink_first (criterion env mb subs) subs hosts hlen hr height hh i f i hlt (by have := hf i hlt; omega)
        refine ⟨r, ?_⟩
        rintro s' hs'
        cases hs'
        have hgh : Outcome.get hosts i = .ok h := by simp [Outcome.get, e1]
        refine ⟨?_, fun h => absurd ht h, fun _ => ?_⟩
        · unfold trapOf
          rw [hg, Outcome.bind_ok, if_neg (by simpa using ht), hgh, Outcome.bind_ok, e2]
        · have hlm : i < mb.length := by rw [hm.length]; exact hlt
          refine ⟨mb[i], List.getElem?_eq_getElem hlm, ?_⟩
          have hgood : (fun p => ∃ q, subs[p]? = some q ∧ 1 < q.nbound ∧ criterion env mb subs i p = true)
              = (fun p => ∃ q, subs[p]? = some q ∧ 1 < q.nbound ∧ SunkInto env mb[i] q) := by
            funext p
            apply propext
            refine exists_congr (fun q => and_congr_right (fun hq => and_congr_right (fun _ => ?_)))
            exact criterion_iff (List.getElem?_eq_getElem hlm) hq
          rw [hgood] at e3
          exact e3
      · refine ⟨none, ?_⟩
        rintro s' hs'
        cases hs'
        refine ⟨?_, fun _ => rfl, fun h => absurd h ht⟩
        unfold trapOf
        rw [hg, Outcome.bind_ok, if_pos ht]
  choose found hfound using hone
  -- the sinks of all
  have hall : ∀ is : List Nat, (∀ i ∈ is, i < subs.length) →
      trapsOf (criterion env mb subs) fuel subs hosts is = .ok (is.map found) := by
    intro is
    induction is with
    | nil => intro _; rfl
    | cons i is ih =>
      intro h
      have hlt := h i (by simp)
      rw [trapsOf, (hfound i _ (List.getElem?_eq_getElem hlt)).1, Outcome.bind_ok, ih (fun j hj => h j (by simp [hj])), Outcome.bind_ok]
      rfl
  have hall := hall (List.range subs.length) (by simp)
  refine ⟨found, _, _, by unfold detectTraps; rw [hall, Outcome.bind_ok], by simp, ?_, ?_⟩
  · intro i s hi
    have hlt := (List.getElem?_eq_some_iff.mp hi).1
    have h1 := hfound i s hi
    refine ⟨?_, h1.2⟩
    rw [List.getElem?_zipWith, hi]
    simp only [List.getElem?_map, List.getElem?_range hlt, Option.map_some]
    cases found i <;> rfl
  · intro p
    rw [List.mem_filterMap]
    constructor
    · rintro ⟨⟨s, r⟩, hmem, hif⟩
      obtain ⟨i, hi⟩ := List.mem_iff_getElem?.mp hmem
      rw [List.getElem?_zip_eq_some] at hi
      simp only at hi hif
      split at hif
      · refine ⟨i, s, hi.1, by assumption, ?_⟩
        have hlt := (List.getElem?_eq_some_iff.mp hi.1).1
        have := hi.2
        rw [List.getElem?_map, List.getElem?_range hlt] at this
        simp at this
        rw [this, hif]
      · cases hif
    · rintro ⟨i, s, hi, hn, hp⟩
      have hlt := (List.getElem?_eq_some_iff.mp hi).1
      refine ⟨(s, found i), List.mem_iff_getElem?.mpr ⟨i, ?_⟩, by simp [hn, hp]⟩
      rw [List.getElem?_zip_eq_some]
      refine ⟨hi, ?_⟩
      simp [List.getElem?_range hlt]

end Walk

/-! A host across the boundary of a box of length 10: two particles at 9.5 and 0.5 with velocities 1 and -1, and one
more particle that is not bound. -/
section Examples

/-- Position and velocity along the first axis. -/
abbrev Pt (K : Type) := K × K

def exEnv (K : Type) [Field K] (sqrt : K → K) : SinkEnv K (Pt K) :=
  ⟨true, 10, sqrt, fun _ => 1, fun d j => if j = 0 then d.1 else 0, fun d j => if j = 0 then d.2 else 0⟩

def exHost (K : Type) [Field K] : Sub K (Pt K) :=
  { mbound := 2, lastMaxMass := 2, nbound := 2, particles := [⟨1, (19 / 2, 1)⟩, ⟨2, (1 / 2, -1)⟩, ⟨3, (5, 0)⟩], trackId := 0 }

def exSat (K : Type) [Field K] : Sub K (Pt K) :=
  { mbound := 1, lastMaxMass := 1, nbound := 1, particles := [⟨4, (99 / 10, 1 / 2)⟩], trackId := 1 }

def exAt (K : Type) [Field K] (x v : K) : MostBound K := ⟨fun j => if j = 0 then x else 0, fun j => if j = 0 then v else 0⟩

/-- Enough of a square root for the numbers below. -/
def tableSqrt (x : ℚ) : ℚ := if x = 1 / 4 then 1 / 2 else if x = 1 then 1 else if x = 1 / 100 then 1 / 10 else if x = 16 then 4 else 0

-- the satellite is found near the host, across the boundary; one far away is not; an orphan host is passed over, and
-- a distance of exactly two is not enough
example : (detectTrapsC (exEnv ℚ tableSqrt) [exAt ℚ 9 0, exAt ℚ (99 / 10) (1 / 2)] 7 3 [-1, 0] [exHost ℚ, exSat ℚ]).bind
    (fun r => .ok (r.1.map (fun s => (s.sinkTrackId, s.snapSink)), r.2)) = .ok ([(-1, -1), (0, 7)], []) := by decide +kernel
example : (detectTrapsC (exEnv ℚ tableSqrt) [exAt ℚ 9 0, exAt ℚ 6 (1 / 2)] 7 3 [-1, 0] [exHost ℚ, exSat ℚ]).bind
    (fun r => .ok (r.1.map (fun s => (s.sinkTrackId, s.snapSink)), r.2)) = .ok ([(-1, -1), (-1, -1)], []) := by decide +kernel
example : (detectTrapsC (exEnv ℚ tableSqrt) [exAt ℚ 9 0, exAt ℚ 9 0, exAt ℚ (99 / 10) (1 / 2)] 7 3 [-1, 0, 1]
      [exHost ℚ, exSat ℚ, { exHost ℚ with trackId := 2 }]).bind
    (fun r => .ok (r.1.map (fun s => (s.sinkTrackId, s.snapSink)), r.2)) = .ok ([(-1, -1), (-1, -1), (0, 7)], [0]) := by decide +kernel

noncomputable def exReal : SinkEnv ℝ (Pt ℝ) := exEnv ℝ Real.sqrt

theorem exReal_sane : Sane exReal :=
  ⟨fun x hx => ⟨Real.sqrt_nonneg x, Real.mul_self_sqrt hx⟩, fun _ => by simp [exReal, exEnv]⟩

theorem exHost_core : HasCore exReal (exHost ℝ) := by
  refine ⟨by simp [exHost], by simp [exHost], fun p _ => by simp [exReal, exEnv], ?_⟩
  refine ⟨_, .box rfl [⟨1, fun j => if j = 0 then -1 / 2 else 0, fun j => if j = 0 then 1 else 0⟩,
    ⟨1, fun j => if j = 0 then 1 / 2 else 0, fun _ => 0⟩] ?_ ?_ ?_⟩
  · simp only [places, coreOf, exHost, exReal, exEnv, BoxParticle.seen, List.map, List.take]
    refine List.cons_eq_cons.mpr ⟨Prod.ext rfl ?_, List.cons_eq_cons.mpr ⟨Prod.ext rfl ?_, rfl⟩⟩
    · funext j
      simp only
      split <;> norm_num
    · funext j
      simp only
      split <;> norm_num
  · intro p hp q hq j
    simp only [List.mem_cons, List.not_mem_nil, or_false] at hp hq
    rcases hp with rfl | rfl <;> rcases hq with rfl | rfl <;> simp only [exReal, exEnv] <;> split <;> norm_num [abs_lt]
  · intro p hp j
    simp only [List.mem_cons, List.not_mem_nil, or_false] at hp
    rcases hp with rfl | rfl <;> simp only [exReal, exEnv, BoxParticle.seen] <;> split <;> norm_num

-- the hypotheses of the theorems are met, with the square root of the reals
example : Measured exReal [exAt ℝ 9 0, exAt ℝ (99 / 10) (1 / 2)] [exHost ℝ, exSat ℝ] := by
  refine ⟨rfl, ?_, ?_, ?_⟩
  · intro s hs
    simp only [List.mem_cons, List.not_mem_nil, or_false] at hs
    rcases hs with rfl | rfl <;> simp [exHost, exSat]
  · intro s hs h1
    simp only [List.mem_cons, List.not_mem_nil, or_false] at hs
    rcases hs with rfl | rfl
    · exact exHost_core
    · simp [exSat] at h1
  · intro _ m hm j
    simp only [List.mem_cons, List.not_mem_nil, or_false] at hm
    rcases hm with rfl | rfl <;> simp only [exAt, exReal, exEnv] <;> split <;> norm_num

-- and both answers occur
example : ∃ sat, sinkTest (exEnv ℚ tableSqrt) sat (exHost ℚ) = .ok true := ⟨exAt ℚ (99 / 10) (1 / 2), by decide +kernel⟩
example : ∃ sat, sinkTest (exEnv ℚ tableSqrt) sat (exHost ℚ) = .ok false := ⟨exAt ℚ 6 (1 / 2), by decide +kernel⟩

end Examples
end HBT.Props
