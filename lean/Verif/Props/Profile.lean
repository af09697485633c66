import Verif.Lemmas.Profile
import Verif.Lemmas.Config
import Mathlib.Data.Rat.Floor
import Mathlib.Algebra.Order.Ring.Rat
/-!
# C48 and C49: density profile quantities and spherical overdensity sizes
-/
set_option linter.unusedSectionVars false
namespace HBT.Props
open HBT.Model HBT.Spec
variable {K : Type} [Field K] [LinearOrder K] [IsStrictOrderedRing K]

theorem bodiesOf_length (env : ProfileEnv K) (cen : Fin 3 → K) (b : List (Weighted K)) :
    (bodiesOf env cen b).length = b.length := by simp [bodiesOf]

/-- What a call on two or more bound particles returns, in terms of the profile. -/
theorem calculate_eq (env : ProfileEnv K) (hs : RadiusSort env.sort) (cen : Fin 3 → K)
    (particles : List (Weighted K)) (n : Nat) (hn : 1 < n) (hlen : n ≤ particles.length)
    (s : ProfileProps K) (prof : List (ProfPoint K))
    (hprof : prof = profileOf env.sort env.soft (bodiesOf env cen (particles.take n))) :
    prof.length = n ∧ ∃ mp ∈ prof, (∀ p ∈ prof, p.v ≤ mp.v) ∧
      ∃ (hh : n / 2 < prof.length) (h2 : n * 955 / 1000 < prof.length),
      calculateProfile env cen particles n s
        = .ok (recordPeak env.snap (env.sqrt (mp.v * (env.g / env.a)))
          { s with rmax := mp.r, vmax := env.sqrt (mp.v * (env.g / env.a)), rhalf := prof[n / 2].r,
                   r2sigma := prof[n * 955 / 1000].r,
                   m200 := (overdensityProfile env.cbrt (rhoVirial 200 env.hz env.g env.a)
                     (s.m200, s.r200) prof).1,
                   r200 := (overdensityProfile env.cbrt (rhoVirial 200 env.hz env.g env.a)
                     (s.m200, s.r200) prof).2 }) := by
  have hl : prof.length = n := by
    rw [hprof, profileOf_length, (hs.perm _).length_eq, bodiesOf_length, List.length_take]; omega
  refine ⟨hl, ?_⟩
  cases hp : prof with
  | nil => rw [hp] at hl; simp at hl; omega
  | cons p rest =>
    have hh : n / 2 < (p :: rest).length := by rw [← hp, hl]; omega
    have h2 : n * 955 / 1000 < (p :: rest).length := by rw [← hp, hl]; omega
    refine ⟨maxElement p rest, maxElement_mem p rest, le_maxElement p rest, hh, h2, ?_⟩
    have hpr := hprof.symm.trans hp
    simp only [calculateProfile, if_neg (show ¬ n ≤ 1 by omega),
      if_neg (show ¬ particles.length < n by omega), hpr, Outcome.get_of_lt hh, Outcome.get_of_lt h2,
      Outcome.bind_ok]

theorem recordPeak_fields (snap : Int) (v : K) (s : ProfileProps K) :
    (recordPeak snap v s).rmax = s.rmax ∧ (recordPeak snap v s).vmax = s.vmax ∧
    (recordPeak snap v s).rhalf = s.rhalf ∧ (recordPeak snap v s).r2sigma = s.r2sigma ∧
    (recordPeak snap v s).m200 = s.m200 ∧ (recordPeak snap v s).r200 = s.r200 := by
  unfold recordPeak
  split <;> simp

/-- **C48.** `VmaxPhysical` is the largest circular velocity of the bound particles: it is reached at
`RmaxComoving`, which is the (resolution-limited) radius of one of them, and at no radius from the
softening length on is the circular velocity of the enclosed mass larger. -/
theorem C48_vmax (env : ProfileEnv K) (hs : RadiusSort env.sort) (cen : Fin 3 → K)
    (particles : List (Weighted K)) (n : Nat) (hn : 1 < n) (hlen : n ≤ particles.length)
    (s : ProfileProps K) (hsoft : 0 < env.soft) (hunit : 0 ≤ env.g / env.a)
    (hsqrt : ∀ x y : K, x ≤ y → env.sqrt x ≤ env.sqrt y)
    (hm : ∀ p ∈ particles, 0 ≤ p.1) (bodies : List (K × K))
    (hb : bodies = (particles.take n).map (fun p =>
      (env.sqrt (periodicDistance2 env.periodic env.boxsize cen p.2), p.1))) :
    ∃ s', calculateProfile env cen particles n s = .ok s' ∧
      (∃ b ∈ bodies, s'.rmax = resolved env.soft b.1) ∧
      s'.vmax = env.sqrt (enclosedMass bodies s'.rmax / s'.rmax * (env.g / env.a)) ∧
      ∀ R, env.soft ≤ R → env.sqrt (enclosedMass bodies R / R * (env.g / env.a)) ≤ s'.vmax := by
  have hb' : bodies = bodiesOf env cen (particles.take n) := hb
  obtain ⟨hl, mp, hmp, hmax, hh, h2, he⟩ := calculate_eq env hs cen particles n hn hlen s _ rfl
  rw [← hb'] at hmp hmax hl
  obtain ⟨S, hS⟩ : ∃ S, S = env.sort bodies := ⟨_, rfl⟩
  have hperm : S.Perm bodies := hS ▸ hs.perm bodies
  have hsorted : S.Pairwise (fun a b => a.1 ≤ b.1) := hS ▸ hs.sorted bodies
  have hmS : ∀ b ∈ S, 0 ≤ b.2 := by
    intro b hbS
    have := hperm.mem_iff.mp hbS
    rw [hb] at this
    obtain ⟨p, hp, rfl⟩ := List.mem_map.mp this
    exact hm p (List.mem_of_mem_take hp)
  have hSl : S.length = n := by rw [← hl, profileOf_length, hS]
  have hv : ∀ i (hi : i < S.length),
      ((S.take (i + 1)).map (·.2)).sum / resolved env.soft S[i].1 ≤ mp.v := by
    intro i hi
    subst hS
    have := hmax _ (List.getElem_mem (l := profileOf env.sort env.soft bodies) (n := i)
      (by rw [profileOf_length]; exact hi))
    rw [profileOf_getElem _ _ _ i hi] at this
    exact this
  obtain ⟨k, hk, hkeq⟩ := List.getElem_of_mem hmp
  have hkS : k < S.length := by rw [hS]; rw [profileOf_length] at hk; exact hk
  have hmpeq : mp = ⟨resolved env.soft S[k].1, ((S.take (k + 1)).map (·.2)).sum,
      ((S.take (k + 1)).map (·.2)).sum / resolved env.soft S[k].1⟩ := by
    rw [← hkeq]
    subst hS
    exact profileOf_getElem _ _ _ k hkS
  have hpos : ∀ r : K, 0 < resolved env.soft r := fun r => lt_of_lt_of_le hsoft (le_max_right _ _)
  -- every radius from the softening on
  have hall : ∀ R, env.soft ≤ R → enclosedMass S R / R ≤ mp.v := by
    intro R hR
    have hR0 : 0 < R := lt_of_lt_of_le hsoft hR
    by_cases hex : ∃ b ∈ S, b.1 ≤ R
    · obtain ⟨b, hbS, hbR⟩ := hex
      obtain ⟨j, hj, hjR, -, hje⟩ := cum_last S hsorted R b hbS hbR
      have h1 := hv j hj
      rw [hje] at h1
      refine le_trans ?_ h1
      have h0 : 0 ≤ enclosedMass S R := by
        unfold enclosedMass
        apply List.sum_nonneg
        intro x hx
        obtain ⟨c, hc, rfl⟩ := List.mem_map.mp hx
        exact hmS c (List.mem_filter.mp hc).1
      exact div_le_div_of_nonneg_left h0 (hpos _) (max_le hjR hR)
    · have h0 : enclosedMass S R = 0 := by
        unfold enclosedMass
        rw [List.filter_eq_nil_iff.mpr]
        · rfl
        · intro b hbS
          simpa using fun h => hex ⟨b, hbS, h⟩
      rw [h0, zero_div]
      have h1 := hv 0 (by omega)
      refine le_trans ?_ h1
      refine div_nonneg (List.sum_nonneg ?_) (le_of_lt (hpos _))
      intro x hx
      obtain ⟨c, hc, rfl⟩ := List.mem_map.mp hx
      exact hmS c (List.mem_of_mem_take hc)
  have hmpv : mp.v = enclosedMass S mp.r / mp.r := by
    apply le_antisymm
    · rw [hmpeq]
      exact div_le_div_of_nonneg_right
        (cum_le_enclosed S hsorted hmS _ k hkS (le_max_left _ _)) (le_of_lt (hpos _))
    · apply hall
      rw [hmpeq]
      exact le_max_right _ _
  obtain ⟨f1, f2, -⟩ := recordPeak_fields env.snap (env.sqrt (mp.v * (env.g / env.a)))
    { s with rmax := mp.r, vmax := env.sqrt (mp.v * (env.g / env.a)),
             rhalf := (profileOf env.sort env.soft (bodiesOf env cen (particles.take n)))[n / 2].r,
             r2sigma := (profileOf env.sort env.soft
               (bodiesOf env cen (particles.take n)))[n * 955 / 1000].r,
             m200 := (overdensityProfile env.cbrt (rhoVirial 200 env.hz env.g env.a)
               (s.m200, s.r200) (profileOf env.sort env.soft (bodiesOf env cen (particles.take n)))).1,
             r200 := (overdensityProfile env.cbrt (rhoVirial 200 env.hz env.g env.a)
               (s.m200, s.r200) (profileOf env.sort env.soft (bodiesOf env cen (particles.take n)))).2 }
  refine ⟨_, he, ⟨S[k], hperm.mem_iff.mp (List.getElem_mem _), ?_⟩, ?_, ?_⟩
  · rw [f1]; simp only; rw [hmpeq]
  · rw [f1, f2]; simp only
    rw [← enclosedMass_perm hperm, ← hmpv]
  · intro R hR
    rw [f2]; simp only
    rw [← enclosedMass_perm hperm]
    exact hsqrt _ _ (mul_le_mul_of_nonneg_right (hall R hR) hunit)

/-- Position `i` of a sorted profile: more than `i` bodies count at that radius or less, and at most
`i` at a smaller one. -/
theorem rank_of_sorted (soft : K) (bodies S : List (K × K)) (hperm : S.Perm bodies)
    (hsorted : S.Pairwise (fun a b => a.1 ≤ b.1)) (i : Nat) (hi : i < S.length) :
    i < countWithin soft bodies (resolved soft S[i].1) ∧
    bodies.countP (fun b => decide (resolved soft b.1 < resolved soft S[i].1)) ≤ i := by
  have hmono : ∀ a b : K, a ≤ b → resolved soft a ≤ resolved soft b := fun a b h =>
    max_le_max h (le_refl _)
  constructor
  · rw [countWithin, ← hperm.countP_eq]
    have h1 : (S.take (i + 1)).countP
        (fun b => decide (resolved soft b.1 ≤ resolved soft S[i].1)) = i + 1 := by
      rw [List.countP_eq_length.mpr]
      · rw [List.length_take]; omega
      · intro b hb
        obtain ⟨j, hj, rfl⟩ := List.getElem_of_mem hb
        rw [List.length_take] at hj
        rw [List.getElem_take]
        simpa using hmono _ _ (sorted_le S hsorted (by omega) hi)
    have h2 := List.Sublist.countP_le
      (p := fun b : K × K => decide (resolved soft b.1 ≤ resolved soft S[i].1))
      (List.take_sublist (i + 1) S)
    omega
  · rw [← hperm.countP_eq]
    obtain ⟨x, hx⟩ : ∃ x, x = resolved soft S[i].1 := ⟨_, rfl⟩
    rw [← hx]
    have h0 : (S.drop i).countP (fun b => decide (resolved soft b.1 < x)) = 0 := by
      rw [List.countP_eq_zero]
      intro b hb
      obtain ⟨j, hj, rfl⟩ := List.getElem_of_mem hb
      rw [List.length_drop] at hj
      simp only [List.getElem_drop, decide_eq_true_eq, not_lt]
      rw [hx]
      exact hmono _ _ (sorted_le S hsorted (by omega) (by omega))
    have h1 := List.countP_le_length (l := S.take i) (p := fun b => decide (resolved soft b.1 < x))
    have h2 : S.countP (fun b => decide (resolved soft b.1 < x))
        = (S.take i).countP (fun b => decide (resolved soft b.1 < x))
          + (S.drop i).countP (fun b => decide (resolved soft b.1 < x)) := by
      rw [← List.countP_append, List.take_append_drop]
    rw [List.length_take] at h1
    omega

/-- **C48.** `RHalfComoving` is the radius of one of the bound particles, more than half of them lie
within it and at most half strictly inside. The same holds of `R2SigmaComoving` with 95.5%. -/
theorem C48_half (env : ProfileEnv K) (hs : RadiusSort env.sort) (cen : Fin 3 → K)
    (particles : List (Weighted K)) (n : Nat) (hn : 1 < n) (hlen : n ≤ particles.length)
    (s : ProfileProps K) (bodies : List (K × K))
    (hb : bodies = (particles.take n).map (fun p =>
      (env.sqrt (periodicDistance2 env.periodic env.boxsize cen p.2), p.1))) :
    ∃ s', calculateProfile env cen particles n s = .ok s' ∧
      (∃ b ∈ bodies, s'.rhalf = resolved env.soft b.1) ∧
      n < 2 * countWithin env.soft bodies s'.rhalf ∧
      2 * bodies.countP (fun b => decide (resolved env.soft b.1 < s'.rhalf)) ≤ n ∧
      (∃ b ∈ bodies, s'.r2sigma = resolved env.soft b.1) ∧
      955 * n < 1000 * countWithin env.soft bodies s'.r2sigma ∧
      1000 * bodies.countP (fun b => decide (resolved env.soft b.1 < s'.r2sigma)) ≤ 955 * n ∧
      s'.rhalf ≤ s'.r2sigma := by
  have hb' : bodies = bodiesOf env cen (particles.take n) := hb
  obtain ⟨hl, mp, hmp, hmax, hh, h2, he⟩ := calculate_eq env hs cen particles n hn hlen s _ rfl
  refine ⟨_, he, ?_⟩
  obtain ⟨-, -, f1, f2, -⟩ := recordPeak_fields env.snap (env.sqrt (mp.v * (env.g / env.a)))
    { s with rmax := mp.r, vmax := env.sqrt (mp.v * (env.g / env.a)),
             rhalf := (profileOf env.sort env.soft (bodiesOf env cen (particles.take n)))[n / 2].r,
             r2sigma := (profileOf env.sort env.soft
               (bodiesOf env cen (particles.take n)))[n * 955 / 1000].r,
             m200 := (overdensityProfile env.cbrt (rhoVirial 200 env.hz env.g env.a)
               (s.m200, s.r200) (profileOf env.sort env.soft (bodiesOf env cen (particles.take n)))).1,
             r200 := (overdensityProfile env.cbrt (rhoVirial 200 env.hz env.g env.a)
               (s.m200, s.r200) (profileOf env.sort env.soft (bodiesOf env cen (particles.take n)))).2 }
  rw [f1, f2]
  simp only [← hb']
  have hSl : (env.sort bodies).length = n := by
    rw [(hs.perm _).length_eq, hb', bodiesOf_length, List.length_take]; omega
  have h1' : n / 2 < (env.sort bodies).length := by omega
  have h2' : n * 955 / 1000 < (env.sort bodies).length := by omega
  rw [profileOf_getElem _ _ _ _ h1', profileOf_getElem _ _ _ _ h2']
  simp only
  have hp := hs.perm bodies
  obtain ⟨a1, a2⟩ := rank_of_sorted env.soft bodies _ hp (hs.sorted bodies) _ h1'
  obtain ⟨b1, b2⟩ := rank_of_sorted env.soft bodies _ hp (hs.sorted bodies) _ h2'
  refine ⟨⟨_, hp.mem_iff.mp (List.getElem_mem h1'), rfl⟩, by omega, by omega,
    ⟨_, hp.mem_iff.mp (List.getElem_mem h2'), rfl⟩, by omega, by omega, ?_⟩
  exact max_le_max (sorted_le _ (hs.sorted bodies) (by omega) h2') (le_refl _)

/-- **C48.** With at most one bound particle every profile quantity is zero and the peak record stays. -/
theorem C48_unresolved (env : ProfileEnv K) (cen : Fin 3 → K) (particles : List (Weighted K))
    (n : Nat) (hn : n ≤ 1) (s : ProfileProps K) :
    calculateProfile env cen particles n s
      = .ok ⟨0, 0, s.lastMaxVmax, s.lastMaxSnap, 0, 0, 0, 0⟩ := by
  rw [calculateProfile, if_pos hn]

/-- One call: snapshot data, centre, particles and number of bound ones. -/
structure ProfileCall (K : Type) where
  env : ProfileEnv K
  cen : Fin 3 → K
  particles : List (Weighted K)
  nbound : Nat

/-- `states` are the values the subhalo takes after each of the calls, starting from `s`. -/
def Lived : ProfileProps K → List (ProfileCall K) → List (ProfileProps K) → Prop
  | _, [], [] => True
  | s, c :: cs, t :: ts => calculateProfile c.env c.cen c.particles c.nbound s = .ok t ∧ Lived t cs ts
  | _, _, _ => False

/-- The snapshot and `VmaxPhysical` of each call on a resolved subhalo. -/
def vmaxHistory (calls : List (ProfileCall K)) (states : List (ProfileProps K)) : List (Int × K) :=
  (calls.zip states).filterMap (fun e => if 1 < e.1.nbound then some (e.1.env.snap, e.2.vmax) else none)

/-- The last state of a history. -/
def finalState (s : ProfileProps K) (states : List (ProfileProps K)) : ProfileProps K :=
  states.foldl (fun _ t => t) s

theorem calculate_peak (env : ProfileEnv K) (cen : Fin 3 → K) (particles : List (Weighted K))
    (n : Nat) (s t : ProfileProps K) (h : calculateProfile env cen particles n s = .ok t) :
    (n ≤ 1 ∧ t.lastMaxVmax = s.lastMaxVmax ∧ t.lastMaxSnap = s.lastMaxSnap) ∨
    (1 < n ∧ s.lastMaxVmax ≤ t.vmax ∧ t.lastMaxVmax = t.vmax ∧ t.lastMaxSnap = env.snap) ∨
    (1 < n ∧ t.vmax < s.lastMaxVmax ∧ t.lastMaxVmax = s.lastMaxVmax ∧ t.lastMaxSnap = s.lastMaxSnap) := by
  unfold calculateProfile at h
  split at h
  · rename_i h1
    injection h with h
    subst h
    exact Or.inl ⟨h1, rfl, rfl⟩
  · rename_i h1
    right
    split at h
    · cases h
    · generalize profileOf env.sort env.soft (bodiesOf env cen (particles.take n)) = prof at h
      cases prof with
      | nil => cases h
      | cons p rest =>
        obtain ⟨a, ha⟩ : ∃ a, Outcome.get (p :: rest) (n / 2) = .ok a := by
          cases hg : Outcome.get (p :: rest) (n / 2) <;> simp [hg, bind, Outcome.bind] at h ⊢
        obtain ⟨b, hb⟩ : ∃ b, Outcome.get (p :: rest) (n * 955 / 1000) = .ok b := by
          cases hg : Outcome.get (p :: rest) (n * 955 / 1000) <;>
            simp [hg, ha, bind, Outcome.bind] at h ⊢
        simp only [ha, hb, Outcome.bind_ok] at h
        injection h with h
        subst h
        unfold recordPeak
        split
        · exact Or.inl ⟨by omega, ‹_›, rfl, rfl⟩
        · exact Or.inr ⟨by omega, not_le.mp ‹_›, rfl, rfl⟩

/-- **C48.** Over any sequence of calls, `LastMaxVmaxPhysical` is the running maximum of the
`VmaxPhysical` reported at snapshots where the subhalo was resolved, and
`SnapshotIndexOfLastMaxVmax` is the last of them at which that maximum was reached. -/
theorem C48_peak (calls : List (ProfileCall K)) : ∀ (s : ProfileProps K)
    (states : List (ProfileProps K)), Lived s calls states →
    PeakOf s.lastMaxVmax s.lastMaxSnap (vmaxHistory calls states)
      (finalState s states).lastMaxVmax (finalState s states).lastMaxSnap := by
  induction calls with
  | nil =>
    intro s states h
    cases states with
    | nil => exact ⟨le_refl _, by simp [vmaxHistory], Or.inl ⟨rfl, rfl, by simp [vmaxHistory]⟩⟩
    | cons t ts => exact absurd h (by simp [Lived])
  | cons c cs ih =>
    intro s states h
    cases states with
    | nil => exact absurd h (by simp [Lived])
    | cons t ts =>
      obtain ⟨hc, hrest⟩ := h
      have hI := ih t ts hrest
      have hfin : finalState s (t :: ts) = finalState t ts := rfl
      rw [hfin]
      obtain ⟨i1, i2, i3⟩ := hI
      rcases calculate_peak _ _ _ _ _ _ hc with ⟨hn, e1, e2⟩ | ⟨hn, e1, e2, e3⟩ | ⟨hn, e1, e2, e3⟩
      · have hh : vmaxHistory (c :: cs) (t :: ts) = vmaxHistory cs ts := by
          simp [vmaxHistory, Nat.not_lt.mpr hn]
        rw [hh, ← e1, ← e2]
        exact ⟨i1, i2, i3⟩
      · have hh : vmaxHistory (c :: cs) (t :: ts) = (c.env.snap, t.vmax) :: vmaxHistory cs ts := by
          simp [vmaxHistory, hn]
        rw [hh]
        rw [e2] at i1 i3
        refine ⟨le_trans e1 i1, ?_, Or.inr ?_⟩
        · intro e he
          rcases List.mem_cons.mp he with rfl | he
          · exact i1
          · exact i2 e he
        · rcases i3 with ⟨j1, j2, j3⟩ | ⟨bef, aft, j1, j2⟩
          · refine ⟨[], vmaxHistory cs ts, ?_, j3⟩
            rw [j1, j2, e3]; rfl
          · exact ⟨_ :: bef, aft, by rw [j1]; rfl, j2⟩
      · have hh : vmaxHistory (c :: cs) (t :: ts) = (c.env.snap, t.vmax) :: vmaxHistory cs ts := by
          simp [vmaxHistory, hn]
        rw [hh]
        rw [e2] at i1 i3
        rw [e3] at i3
        refine ⟨i1, ?_, ?_⟩
        · intro e he
          rcases List.mem_cons.mp he with rfl | he
          · exact le_trans (le_of_lt e1) i1
          · exact i2 e he
        · rcases i3 with ⟨j1, j2, j3⟩ | ⟨bef, aft, j1, j2⟩
          · refine Or.inl ⟨j1, j2, ?_⟩
            intro e he
            rcases List.mem_cons.mp he with rfl | he
            · exact lt_of_lt_of_le e1 i1
            · exact j3 e he
          · exact Or.inr ⟨_ :: bef, aft, by rw [j1]; rfl, j2⟩

/-- **C49.** If the mean density inside some bound particle's radius exceeds 200 times the critical
density, `BoundM200Crit` is the mass enclosed at one such radius `R`, and `BoundR200CritComoving` is
where the mean density of that mass falls to the threshold: every radius from `R` up to it is
overdense, and no radius at or beyond it is. -/
theorem C49_bound_size (env : ProfileEnv K) (hs : RadiusSort env.sort) (cen : Fin 3 → K)
    (particles : List (Weighted K)) (n : Nat) (hn : 1 < n) (hlen : n ≤ particles.length)
    (s : ProfileProps K) (hsoft : 0 ≤ env.soft) (hm : ∀ p ∈ particles, 0 ≤ p.1)
    (hcbrt : ∀ x : K, 0 ≤ x → 0 ≤ env.cbrt x ∧ env.cbrt x ^ 3 = x)
    (rho : K) (hrho : rho = 200 * env.hz ^ 2 / (2 * env.g) * env.a ^ 3) (hpos : 0 < rho)
    (bodies : List (K × K))
    (hb : bodies = (particles.take n).map (fun p =>
      (env.sqrt (periodicDistance2 env.periodic env.boxsize cen p.2), p.1)))
    (hsome : ∃ b ∈ bodies, Overdense bodies rho (resolved env.soft b.1)) :
    ∃ s', calculateProfile env cen particles n s = .ok s' ∧
      ∃ b ∈ bodies, s'.m200 = enclosedMass bodies (resolved env.soft b.1) ∧
        rho * s'.r200 ^ 3 = s'.m200 ∧ resolved env.soft b.1 < s'.r200 ∧
        (∀ r, resolved env.soft b.1 ≤ r → r < s'.r200 → Overdense bodies rho r) ∧
        ∀ r, s'.r200 ≤ r → ¬ Overdense bodies rho r := by
  have hb' : bodies = bodiesOf env cen (particles.take n) := hb
  have hrv : rhoVirial 200 env.hz env.g env.a = rho := by
    rw [hrho, rhoVirial]
    by_cases hg : env.g = 0
    · simp [hg]
    · field_simp
  obtain ⟨hl, mp, hmp, hmax, hh, h2, he⟩ := calculate_eq env hs cen particles n hn hlen s _ rfl
  refine ⟨_, he, ?_⟩
  obtain ⟨-, -, -, -, f1, f2⟩ := recordPeak_fields env.snap (env.sqrt (mp.v * (env.g / env.a)))
    { s with rmax := mp.r, vmax := env.sqrt (mp.v * (env.g / env.a)),
             rhalf := (profileOf env.sort env.soft (bodiesOf env cen (particles.take n)))[n / 2].r,
             r2sigma := (profileOf env.sort env.soft
               (bodiesOf env cen (particles.take n)))[n * 955 / 1000].r,
             m200 := (overdensityProfile env.cbrt (rhoVirial 200 env.hz env.g env.a)
               (s.m200, s.r200) (profileOf env.sort env.soft (bodiesOf env cen (particles.take n)))).1,
             r200 := (overdensityProfile env.cbrt (rhoVirial 200 env.hz env.g env.a)
               (s.m200, s.r200) (profileOf env.sort env.soft (bodiesOf env cen (particles.take n)))).2 }
  rw [f1, f2]
  simp only [← hb', hrv]
  obtain ⟨S, hS⟩ : ∃ S, S = env.sort bodies := ⟨_, rfl⟩
  have hperm : S.Perm bodies := hS ▸ hs.perm bodies
  have hsorted : S.Pairwise (fun a b => a.1 ≤ b.1) := hS ▸ hs.sorted bodies
  have hmS : ∀ b ∈ S, 0 ≤ b.2 := by
    intro b hbS
    have := hperm.mem_iff.mp hbS
    rw [hb] at this
    obtain ⟨p, hp, rfl⟩ := List.mem_map.mp this
    exact hm p (List.mem_of_mem_take hp)
  have hget : ∀ i (hi : i < S.length), (profileOf env.sort env.soft bodies)[i]'(by
      rw [profileOf_length, ← hS]; exact hi) = ⟨resolved env.soft S[i].1,
        ((S.take (i + 1)).map (·.2)).sum,
        ((S.take (i + 1)).map (·.2)).sum / resolved env.soft S[i].1⟩ := by
    intro i hi
    subst hS
    exact profileOf_getElem _ _ _ i hi
  have hlenS : (profileOf env.sort env.soft bodies).length = S.length := by
    rw [profileOf_length, hS]
  rcases overdensityProfile_index env.cbrt rho (s.m200, s.r200)
    (profileOf env.sort env.soft bodies) with ⟨h1, -⟩ | ⟨k, hk, h3, h4, h5⟩
  · exfalso
    obtain ⟨b, hbm, hov⟩ := hsome
    have hbS := hperm.mem_iff.mpr hbm
    have hbr : b.1 ≤ resolved env.soft b.1 := le_max_left _ _
    obtain ⟨j, hj, hjR, hbj, hje⟩ := cum_last S hsorted _ b hbS hbr
    have := h1 _ (List.getElem_mem (n := j) (by rw [hlenS]; exact hj))
    rw [hget j hj] at this
    apply this
    simp only
    rw [hje, enclosedMass_perm hperm]
    have : resolved env.soft S[j].1 = resolved env.soft b.1 := by
      apply le_antisymm
      · exact max_le hjR (le_max_right _ _)
      · exact max_le_max hbj (le_refl _)
    rw [this]
    exact hov
  · have hkS : k < S.length := by rw [← hlenS]; exact hk
    rw [h5]
    rw [hget k hkS] at h3 ⊢
    simp only at h3 ⊢
    have hnn : 0 ≤ ((S.take (k + 1)).map (·.2)).sum := by
      apply List.sum_nonneg
      intro x hx
      obtain ⟨c, hc, rfl⟩ := List.mem_map.mp hx
      exact hmS c (List.mem_of_mem_take hc)
    obtain ⟨c1, c2⟩ := hcbrt (((S.take (k + 1)).map (·.2)).sum / rho) (div_nonneg hnn (le_of_lt hpos))
    have hx3 : rho * env.cbrt (((S.take (k + 1)).map (·.2)).sum / rho) ^ 3
        = ((S.take (k + 1)).map (·.2)).sum := by
      rw [c2]; field_simp
    obtain ⟨g1, g2, g3, g4⟩ := outermost_boundary S hsorted hmS env.soft rho _ hsoft hpos k hkS h3
      (fun j hj hjl => by
        have := h4 j hj (by rw [hlenS]; exact hjl)
        rw [hget j hjl] at this
        exact this) c1 hx3
    have hO : ∀ r, Overdense S rho r ↔ Overdense bodies rho r := by
      intro r; unfold Overdense; rw [enclosedMass_perm hperm]
    refine ⟨S[k], hperm.mem_iff.mp (List.getElem_mem _), ?_, hx3, g2, ?_, ?_⟩
    · rw [← enclosedMass_perm hperm]; exact g1.symm
    · intro r hr1 hr2; exact (hO r).mp (g3 r hr1 hr2)
    · intro r hr; exact fun h => g4 r hr ((hO r).mpr h)

/-- **C49, finding.** If no bound particle's radius is overdense, `BoundM200Crit` and
`BoundR200CritComoving` keep whatever they held before the call: a subhalo that has become diffuse
reports the size of an earlier snapshot. -/
theorem C49_stale_finding (env : ProfileEnv K) (hs : RadiusSort env.sort) (cen : Fin 3 → K)
    (particles : List (Weighted K)) (n : Nat) (hn : 1 < n) (hlen : n ≤ particles.length)
    (s : ProfileProps K) (hm : ∀ p ∈ particles, 0 ≤ p.1)
    (rho : K) (hrho : rho = 200 * env.hz ^ 2 / (2 * env.g) * env.a ^ 3)
    (bodies : List (K × K))
    (hb : bodies = (particles.take n).map (fun p =>
      (env.sqrt (periodicDistance2 env.periodic env.boxsize cen p.2), p.1)))
    (hnone : ∀ b ∈ bodies, ¬ Overdense bodies rho (resolved env.soft b.1)) :
    ∃ s', calculateProfile env cen particles n s = .ok s' ∧ s'.m200 = s.m200 ∧ s'.r200 = s.r200 := by
  have hb' : bodies = bodiesOf env cen (particles.take n) := hb
  have hrv : rhoVirial 200 env.hz env.g env.a = rho := by
    rw [hrho, rhoVirial]
    by_cases hg : env.g = 0
    · simp [hg]
    · field_simp
  obtain ⟨hl, mp, hmp, hmax, hh, h2, he⟩ := calculate_eq env hs cen particles n hn hlen s _ rfl
  refine ⟨_, he, ?_⟩
  obtain ⟨-, -, -, -, f1, f2⟩ := recordPeak_fields env.snap (env.sqrt (mp.v * (env.g / env.a)))
    { s with rmax := mp.r, vmax := env.sqrt (mp.v * (env.g / env.a)),
             rhalf := (profileOf env.sort env.soft (bodiesOf env cen (particles.take n)))[n / 2].r,
             r2sigma := (profileOf env.sort env.soft
               (bodiesOf env cen (particles.take n)))[n * 955 / 1000].r,
             m200 := (overdensityProfile env.cbrt (rhoVirial 200 env.hz env.g env.a)
               (s.m200, s.r200) (profileOf env.sort env.soft (bodiesOf env cen (particles.take n)))).1,
             r200 := (overdensityProfile env.cbrt (rhoVirial 200 env.hz env.g env.a)
               (s.m200, s.r200) (profileOf env.sort env.soft (bodiesOf env cen (particles.take n)))).2 }
  rw [f1, f2]
  simp only [← hb', hrv]
  rcases overdensityProfile_index env.cbrt rho (s.m200, s.r200)
    (profileOf env.sort env.soft bodies) with ⟨-, h⟩ | ⟨k, hk, h3, h4, h5⟩
  · rw [h]; exact ⟨rfl, rfl⟩
  · exfalso
    have hkS : k < (env.sort bodies).length := by rw [profileOf_length] at hk; exact hk
    rw [profileOf_getElem _ _ _ k hkS] at h3
    have hperm := hs.perm bodies
    have hmS : ∀ b ∈ env.sort bodies, 0 ≤ b.2 := by
      intro b hbS
      have := hperm.mem_iff.mp hbS
      rw [hb] at this
      obtain ⟨p, hp, rfl⟩ := List.mem_map.mp this
      exact hm p (List.mem_of_mem_take hp)
    apply hnone _ (hperm.mem_iff.mp (List.getElem_mem hkS))
    unfold Overdense
    rw [← enclosedMass_perm hperm]
    exact lt_of_lt_of_le h3 (cum_le_enclosed _ (hs.sorted bodies) hmS _ k hkS (le_max_left _ _))

end HBT.Props
