import Mathlib.Data.List.Sort
import Verif.Lemmas.Unbind
/-!
# C28, C29, C31: unbinding one subhalo
-/
namespace HBT.Props
open HBT HBT.Model HBT.Spec
variable {K D E : Type}

/-! ## C28 -/

/-- C28. For every list and every length within it, `PartitionBindingEnergy` returns; the list is
permuted, entries from `len` on stay, energies before the returned count are at most 0 and those
from there on at least 0. -/
theorem C28_partition [LinearOrder E] [Zero E] (l : List (PE E)) (len : Nat) (hlen : len ≤ l.length) :
    ∃ l' n, partitionEnergy l len = .ok (l', n) ∧ Partitioned PE.e l len l' n :=
  partitionEnergy_spec l len hlen

/-- C28, without zero energies: exactly the bound particles come first, and the count is their number. -/
theorem C28_no_zero [LinearOrder E] [Zero E] (l : List (PE E)) (len : Nat) (hlen : len ≤ l.length)
    (hz : ∀ x ∈ l.take len, x.e ≠ 0) :
    ∃ l' n, partitionEnergy l len = .ok (l', n) ∧ Partitioned PE.e l len l' n ∧
      (∀ (j : Nat) (x : PE E), l'[j]? = some x → j < len → (x.e < 0 ↔ j < n)) ∧
      n = (l.take len).countP (fun x => decide (x.e < 0)) := by
  obtain ⟨l', n, e, h⟩ := partitionEnergy_spec l len hlen
  obtain ⟨_, ht⟩ := perm_take_of_drop h.perm h.rest
  have hle := h.le
  have hl' := h.perm.length_eq
  have hiff : ∀ (j : Nat) (x : PE E), l'[j]? = some x → j < len → (x.e < 0 ↔ j < n) := by
    intro j x hx hj
    have hxm : x ∈ l.take len := by
      refine ht.mem_iff.1 (List.mem_of_getElem? (i := j) ?_)
      rw [List.getElem?_take, if_pos hj, hx]
    constructor
    · intro hneg
      by_contra hn
      exact absurd (h.unbound j x hx (by omega) hj) (not_le.2 hneg)
    · intro hn
      exact lt_of_le_of_ne (h.bound j x hx hn) (hz x hxm)
  refine ⟨l', n, e, h, hiff, ?_⟩
  rw [← ht.countP_eq, ← List.take_append_drop n (l'.take len), List.countP_append,
    List.countP_eq_length.2, List.countP_eq_zero.2]
  · simp
    omega
  · intro x hx
    obtain ⟨j, hj⟩ := List.getElem?_of_mem hx
    rw [List.getElem?_drop, List.getElem?_take] at hj
    split at hj
    · have := h.unbound _ x hj (by omega) (by assumption)
      simpa using this
    · cases hj
  · intro x hx
    obtain ⟨j, hj⟩ := List.getElem?_of_mem hx
    rw [List.getElem?_take, List.getElem?_take] at hj
    split at hj
    · split at hj
      · simpa using (hiff j x hj (by omega)).2 (by omega)
      · cases hj
    · cases hj

/-- C28, what does not hold: a particle of energy 0 may count as bound or as unbound, depending on
where the others are. -/
theorem C28_zero_energy :
    partitionEnergy [⟨0, -1⟩, ⟨1, 0⟩, ⟨2, -1⟩] 3 = .ok ([⟨2, -1⟩, ⟨1, 0⟩, ⟨0, (-1 : Int)⟩], 3) ∧
    partitionEnergy [⟨0, -1⟩, ⟨2, -1⟩, ⟨1, 0⟩] 3 = .ok ([⟨2, -1⟩, ⟨0, (-1 : Int)⟩, ⟨1, 0⟩], 2) := by decide

/-- A mixed list; the fifth entry is beyond the length. -/
example : partitionEnergy [⟨0, 5⟩, ⟨1, -2⟩, ⟨2, 3⟩, ⟨3, -4⟩, ⟨4, (-9 : Int)⟩] 4
    = .ok ([⟨3, -4⟩, ⟨1, -2⟩, ⟨0, 5⟩, ⟨2, 3⟩, ⟨4, -9⟩], 2) := by decide
example : ∃ l' n, partitionEnergy [⟨0, 5⟩, ⟨1, -2⟩, ⟨2, 3⟩, ⟨3, -4⟩, ⟨4, (-9 : Int)⟩] 4 = .ok (l', n) ∧ n = 2 := by
  obtain ⟨l', n, e, _, _, hn⟩ := C28_no_zero [⟨0, 5⟩, ⟨1, -2⟩, ⟨2, 3⟩, ⟨3, -4⟩, ⟨4, (-9 : Int)⟩] 4 (by decide) (by decide)
  exact ⟨l', n, e, by rw [hn]; decide⟩

/-! ## C29 -/

/-- C29. For every source, every sequence of energies, every shuffle and sort, with
`BoundMassPrecision ≤ 1` and `MinNumPartOfSub ≥ 2`: unbinding terminates without failure after at most
`size` further iterations, keeps the particles and everything else of the track, the mass is the mass of
the bound particles, and the result is resolved or an orphan (see `BoundPart`, `Orphaned`). -/
theorem C29_unbind [LinearOrder E] [Zero E] [MassSum K] (cfg : UnbindConfig) (env : UnbindEnv K D E)
    (hsort : SortsBy PE.e env.sortE) (hshuffle : ∀ l, (env.shuffle l).Perm l)
    (hprec : Stops cfg.fl cfg.prec) (hmin : 2 ≤ cfg.minNum) (fuel : Nat) (snap : Int) (s : Sub K D) (hfuel : s.particles.length < fuel) :
    ∃ s', unbind cfg env fuel snap s = .ok s' ∧ SameTrack s s' ∧ s'.particles.Perm s.particles ∧ BoundMass env.mass s' ∧
      ((∃ src last pids, src.Perm s.particles ∧ BoundPart cfg.minNum env.energy src last pids s') ∨
        Orphaned cfg.minNum env.energy snap s s') := by
  obtain ⟨s', e, h1, h2, h3, h4⟩ := unbind_spec (snap := snap) ⟨hsort, hshuffle⟩ hprec hmin s hfuel
  refine ⟨s', e, h1, h2, h3, h4.imp ?_ id⟩
  rintro ⟨last, pids, h, _⟩
  exact ⟨_, last, pids, unbindSource_perm cfg ⟨hsort, hshuffle⟩ _, h⟩

/-- C29, order: without refinement of the most bound particle the bound particles of a resolved result
are in order of the energies of the last iteration, so that the first one is the most bound. -/
theorem C29_order [LinearOrder E] [Zero E] [MassSum K] (cfg : UnbindConfig) (env : UnbindEnv K D E)
    (hsort : SortsBy PE.e env.sortE) (hshuffle : ∀ l, (env.shuffle l).Perm l)
    (hprec : Stops cfg.fl cfg.prec) (hmin : 2 ≤ cfg.minNum) (fuel : Nat) (snap : Int) (s s' : Sub K D) (hfuel : s.particles.length < fuel)
    (he : unbind cfg env fuel snap s = .ok s') (hres : 1 < s'.nbound) :
    ∃ src last pids, src.Perm s.particles ∧ BoundPart cfg.minNum env.energy src last pids s' ∧
      (¬ (0 < cfg.maxSample ∧ cfg.refine ∧ cfg.maxSample < s'.nbound) →
        (pids.take s'.nbound).Pairwise (fun a b => env.energy last a ≤ env.energy last b)) ∧
      ((0 < cfg.maxSample ∧ cfg.refine ∧ cfg.maxSample < s'.nbound) →
        (pids.take cfg.maxSample).Pairwise (fun a b => env.inner a ≤ env.inner b) ∧
        (∀ a ∈ pids.take cfg.maxSample, ∀ b ∈ (pids.take s'.nbound).drop cfg.maxSample, env.energy last a ≤ env.energy last b) ∧
        ((pids.take s'.nbound).drop cfg.maxSample).Pairwise (fun a b => env.energy last a ≤ env.energy last b)) := by
  obtain ⟨s2, e, h1, h2, h3, h4⟩ := unbind_spec (snap := snap) ⟨hsort, hshuffle⟩ hprec hmin s hfuel
  rw [he] at e
  cases e
  rcases h4 with ⟨last, pids, h, _, hr⟩ | h
  · exact ⟨_, last, pids, unbindSource_perm cfg ⟨hsort, hshuffle⟩ _, h, hr⟩
  · have := h.one
    omega

/-- C29: alive means resolved. -/
theorem C29_alive_iff [LinearOrder E] [Zero E] [MassSum K] (cfg : UnbindConfig) (env : UnbindEnv K D E)
    (hsort : SortsBy PE.e env.sortE) (hshuffle : ∀ l, (env.shuffle l).Perm l)
    (hprec : Stops cfg.fl cfg.prec) (hmin : 2 ≤ cfg.minNum) (fuel : Nat) (snap : Int) (hsnap : snap ≠ nullSnap)
    (s s' : Sub K D) (hfuel : s.particles.length < fuel) (he : unbind cfg env fuel snap s = .ok s') :
    s'.snapDeath = nullSnap ↔ cfg.minNum ≤ s'.nbound := by
  obtain ⟨s2, e, h1, h2, h3, h4⟩ := unbind_spec (snap := snap) ⟨hsort, hshuffle⟩ hprec hmin s hfuel
  rw [he] at e
  cases e
  rcases h4 with ⟨last, pids, h, _⟩ | h
  · exact ⟨fun _ => h.enough, fun _ => h.alive⟩
  · have h5 := h.one
    have h6 := h.dead
    constructor
    · intro h7
      rw [h6] at h7
      split at h7
      · exact absurd h7 hsnap
      · exact absurd h7 (by assumption)
    · intro h7
      omega

/-- C29, what does not hold: with `BoundMassPrecision` above 1 the loop never ends for a bound subhalo
(here two particles with energy -1): no number of iterations suffices. -/
theorem C29_precision_above_one (env : UnbindEnv K D Int) (hsort : SortsBy PE.e env.sortE) (he : ∀ k i, env.energy k i = -1)
    (cfg : UnbindConfig) (hfl : cfg.fl = id) (hprec : 1 < cfg.prec) (hmin : cfg.minNum = 2) (fuel k : Nat) (l : List (PE Int)) (hl : l.length = 2) :
    unbindLoop cfg env fuel k l 2 = .diverge := by
  induction fuel generalizing k l with
  | zero => rfl
  | succ fuel ih =>
    rw [unbindLoop]
    have hz : ∀ x ∈ (setEnergies (env.energy k) 2 l).take 2, x.e = -1 := fun x hx => by
      rw [setEnergies_e _ _ _ x hx, he]
    obtain ⟨l', n, e, h, hiff, hn⟩ := C28_no_zero (setEnergies (env.energy k) 2 l) 2 (by rw [setEnergies_length]; omega)
      (fun x hx => by rw [hz x hx]; decide)
    have hn2 : n = 2 := by
      rw [hn, List.countP_eq_length.2 (fun x hx => by rw [hz x hx]; decide)]
      simp [setEnergies_length, hl]
    subst hn2
    rw [e, Outcome.bind_ok]
    simp only
    rw [if_neg (by omega), if_neg (by rw [hfl]; push_cast; simp only [id]; linarith)]
    refine ih _ _ ?_
    obtain ⟨hp, _⟩ := hsort ((l'.take 2).drop 2)
    have hl' := h.perm.length_eq
    rw [setEnergies_length] at hl'
    have h1 : (env.sortE ((l'.take 2).drop 2)).length = 0 := by
      rw [hp.length_eq]
      simp
    have h2 : (l'.drop 2).length = 0 := by simp; omega
    rw [List.length_append, List.length_append, h1, h2]
    simp
    omega

/-- C29, what does not hold: with `MinNumPartOfSub ≤ 1` a subhalo with one particle is not marked dead. -/
theorem C29_small_minimum [LT E] [DecidableLT E] [Zero E] [MassSum K] (cfg : UnbindConfig) (hmin : cfg.minNum ≤ 1)
    (env : UnbindEnv K D E) (fuel : Nat) (snap : Int) (s : Sub K D) (p : Particle D) (hs : s.particles = [p])
    (ha : s.snapDeath = nullSnap) :
    ∃ s', unbind cfg env fuel snap s = .ok s' ∧ s'.nbound = 1 ∧ s'.snapDeath = nullSnap := by
  refine ⟨setBound env.mass 1 s, ?_, rfl, ha⟩
  rw [unbind, if_neg (by rw [hs]; simp; omega)]
  simp only [hs]

/-! Examples: a source of four particles, energies that unbind particle 2 first and then particle 0. -/

def exESort (l : List (PE Int)) : List (PE Int) := l.insertionSort (fun a b => a.e ≤ b.e)

theorem exESort_spec : SortsBy PE.e exESort := by
  intro l
  haveI : Std.Total (fun a b : PE Int => a.e ≤ b.e) := ⟨fun a b => le_total _ _⟩
  haveI : IsTrans (PE Int) (fun a b : PE Int => a.e ≤ b.e) := ⟨fun _ _ _ h h' => le_trans h h'⟩
  exact ⟨List.perm_insertionSort _ _, List.pairwise_insertionSort _ _⟩

def exUnbindEnv (e : Nat → Nat → Int) : UnbindEnv Int Int Int :=
  { energy := e, inner := fun _ => 0, junk := fun _ => 0, shuffle := id, sortE := exESort, mass := id }
def exUnbindCfg (m : Nat) : UnbindConfig := { minNum := m, maxSample := 0, refine := false, prec := 9/10, relax := 3 }
def exEnergies (k i : Nat) : Int := if i = 2 then 5 else if k = 0 then -10 + i else if i = 0 then 3 else -20 - i
def exUnbindSub : Sub Int Int := { mbound := 0, lastMaxMass := 0, particles := [⟨10, 1⟩, ⟨11, 2⟩, ⟨12, 4⟩, ⟨13, 8⟩] }

example : unbind (exUnbindCfg 2) (exUnbindEnv exEnergies) 5 7 exUnbindSub
    = .ok { exUnbindSub with particles := [⟨13, 8⟩, ⟨11, 2⟩, ⟨10, 1⟩, ⟨12, 4⟩], nbound := 2, mbound := 10 } := by decide +kernel
example : unbind (exUnbindCfg 3) (exUnbindEnv exEnergies) 5 7 exUnbindSub
    = .ok { exUnbindSub with nbound := 1, mbound := 1, snapDeath := 7 } := by decide +kernel
example : ∃ s', unbind (exUnbindCfg 3) (exUnbindEnv exEnergies) 5 7 exUnbindSub = .ok s' ∧
    ((∃ src last pids, src.Perm exUnbindSub.particles ∧ BoundPart 3 exEnergies src last pids s') ∨
      Orphaned 3 exEnergies 7 exUnbindSub s') := by
  obtain ⟨s', e, _, _, _, h⟩ := C29_unbind (exUnbindCfg 3) (exUnbindEnv exEnergies) exESort_spec (fun _ => List.Perm.refl _)
    (stops_exact (by norm_num [exUnbindCfg])) (by decide) 5 7 exUnbindSub (by decide)
  exact ⟨s', e, h⟩

/-! ## C31 -/

/-- C31. With a factor that keeps the bound particles (at least 1 without rounding), truncation keeps a prefix that contains all bound particles and
is at most the factor times as long (as rounded); orphans keep exactly the bound particle. -/
theorem C31_truncate (cfg : UnbindConfig) (hrelax : Keeps cfg.fl cfg.relax) (s : Sub K D) (hb : s.nbound ≤ s.particles.length) :
    ∃ ps, truncateSource cfg s = s.withParticles ps ∧ ps <+: s.particles ∧ s.nbound ≤ ps.length ∧
      (ps.length : ℚ) ≤ cfg.fl (cfg.fl s.nbound * cfg.relax) ∧ (s.nbound ≤ 1 → ps.length = s.nbound) ∧
      (1 < s.nbound → ps ≠ s.particles → cfg.fl (cfg.fl s.nbound * cfg.relax) < ps.length + 1) := by
  have hnn : (0 : ℚ) ≤ (s.nbound : ℚ) := Nat.cast_nonneg _
  have hprod : (s.nbound : ℚ) ≤ cfg.fl (cfg.fl s.nbound * cfg.relax) := hrelax _
  set m : Int := if s.nbound ≤ 1 then (s.nbound : Int) else truncToInt (cfg.fl (cfg.fl s.nbound * cfg.relax)) with hm
  have htr : truncToInt (cfg.fl (cfg.fl s.nbound * cfg.relax)) = ⌊cfg.fl (cfg.fl s.nbound * cfg.relax)⌋ := by
    rw [truncToInt, if_pos (by linarith)]
  have hge : (s.nbound : Int) ≤ m := by
    rw [hm]
    split
    · exact le_refl _
    · rw [htr, Int.le_floor]
      exact_mod_cast hprod
  have hle : (m : ℚ) ≤ cfg.fl (cfg.fl s.nbound * cfg.relax) := by
    rw [hm]
    split
    · exact_mod_cast hprod
    · rw [htr]
      exact Int.floor_le _
  have hlt : 1 < s.nbound → cfg.fl (cfg.fl s.nbound * cfg.relax) < m + 1 := by
    intro h
    rw [hm, if_neg (by omega), htr]
    exact Int.lt_floor_add_one _
  set m2 : Int := if m < 0 ∨ (s.particles.length : Int) < m then (s.particles.length : Int) else m with hm2
  refine ⟨s.particles.take m2.toNat, rfl, List.take_prefix _ _, ?_, ?_, ?_, ?_⟩
  · rw [List.length_take, hm2]
    split <;> omega
  · have h1 : ((s.particles.take m2.toNat).length : Int) ≤ m := by
      rw [List.length_take, hm2]
      split <;> omega
    have h2 : ((s.particles.take m2.toNat).length : ℚ) ≤ (m : ℚ) := by exact_mod_cast h1
    linarith
  · intro h
    have : m = s.nbound := by rw [hm, if_pos h]
    rw [List.length_take, hm2, this]
    split <;> omega
  · intro h hne
    have hm3 : m2 = m := by
      rw [hm2]
      by_cases hc : m < 0 ∨ (s.particles.length : Int) < m
      · exfalso
        apply hne
        rw [List.take_of_length_le]
        rw [hm2, if_pos hc]
        omega
      · rw [if_neg hc]
    have h1 : ((s.particles.take m2.toNat).length : Int) = m := by
      rw [List.length_take, hm3]
      by_cases hc : m < 0 ∨ (s.particles.length : Int) < m
      · rw [hm2, if_pos hc] at hm3
        omega
      · omega
    have h2 : ((s.particles.take m2.toNat).length : ℚ) = (m : ℚ) := by exact_mod_cast h1
    rw [h2]
    exact hlt h

/-- C31, what does not hold: with a factor below 1 bound particles are cut, and `Nbound` exceeds the
number of particles. -/
theorem C31_small_factor : ∃ s : Sub Int Unit, s.nbound ≤ s.particles.length ∧
    (truncateSource { minNum := 2, maxSample := 0, refine := false, prec := 1, relax := 1/2 } s).particles.length
      < (truncateSource { minNum := 2, maxSample := 0, refine := false, prec := 1, relax := 1/2 } s).nbound :=
  ⟨{ mbound := 0, lastMaxMass := 0, nbound := 4, particles := [⟨1, ()⟩, ⟨2, ()⟩, ⟨3, ()⟩, ⟨4, ()⟩] }, by decide +kernel, by decide +kernel⟩

example : (truncateSource (exUnbindCfg 2) { exUnbindSub with nbound := 1 }).particles = [⟨10, 1⟩] := by decide +kernel
example : ∃ ps, truncateSource (exUnbindCfg 2) { exUnbindSub with nbound := 1 } =
    Sub.withParticles { exUnbindSub with nbound := 1 } ps ∧ ps.length = 1 := by
  obtain ⟨ps, e, _, _, _, h, _⟩ := C31_truncate (exUnbindCfg 2) (keeps_exact (by norm_num [exUnbindCfg])) { exUnbindSub with nbound := 1 } (by decide)
  exact ⟨ps, e, h (by decide)⟩

end HBT.Props
