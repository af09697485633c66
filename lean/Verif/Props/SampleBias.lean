import Verif.Props.SampledEnergyExample
/-!
# C80: the particles of the sample and the others

The average of C80 is over all shuffles. Over those that put a particle into the sample, the gravity on it is too weak by a factor `n (q - 1) / (q (n - 1))`, with `n` particles and a sample of
`q`: the particle is left out of its own potential, but still counted among the particles that the sample stands for. Over the others it is too strong by `n / (n - 1)`.
-/
namespace HBT.Props
open HBT HBT.Model HBT.Spec HBT.UE
variable {K D : Type} [Field K]

/-- With element `i` at place `k0`, each other element is at each other place equally often. -/
theorem sum_perm_fixed {n : Nat} (g : Fin n → K) (i k0 k : Fin n) (hk : k ≠ k0) (hi : g i = 0) :
    ((n - 1 : Nat) : K) * ∑ σ : Equiv.Perm (Fin n), (if σ k0 = i then g (σ k) else 0) = ((n - 1).factorial : K) * ∑ j, g j := by
  have h : ∀ m : Fin n, m ≠ k0 → ∑ σ : Equiv.Perm (Fin n), (if σ k0 = i then g (σ m) else 0) = ∑ σ : Equiv.Perm (Fin n), (if σ k0 = i then g (σ k) else 0) := by
    intro m hm
    refine Fintype.sum_equiv (Equiv.mulRight (Equiv.swap k m)) _ _ (fun σ => ?_)
    simp [Equiv.swap_apply_of_ne_of_ne hk.symm hm.symm]
  have h0 : ∑ σ : Equiv.Perm (Fin n), (if σ k0 = i then g (σ k0) else 0) = 0 := by
    refine Finset.sum_eq_zero (fun σ _ => ?_)
    split
    · rename_i e; rw [e, hi]
    · rfl
  have h1 : ∑ m : Fin n, ∑ σ : Equiv.Perm (Fin n), (if σ k0 = i then g (σ m) else 0) =
      ((n - 1 : Nat) : K) * ∑ σ : Equiv.Perm (Fin n), (if σ k0 = i then g (σ k) else 0) := by
    rw [← Finset.add_sum_erase _ _ (Finset.mem_univ k0), h0, zero_add, Finset.sum_congr rfl (fun m hm => h m (Finset.ne_of_mem_erase hm)), Finset.sum_const,
      Finset.card_erase_of_mem (Finset.mem_univ _), Finset.card_univ, Fintype.card_fin, nsmul_eq_mul]
  have hc : (∑ σ : Equiv.Perm (Fin n), if σ k0 = i then (1 : K) else 0) = ((n - 1).factorial : K) := by
    have hn : 0 < n := k0.pos
    obtain ⟨m, rfl⟩ : ∃ m, n = m + 1 := ⟨n - 1, by omega⟩
    have key : ∀ a b : Fin (m + 1), ∑ σ : Equiv.Perm (Fin (m + 1)), (if σ a = b then (1 : ℕ) else 0) = m.factorial := by
      intro a b
      have e1 : ∀ c : Fin (m + 1), ∑ σ : Equiv.Perm (Fin (m + 1)), (if σ c = b then (1 : ℕ) else 0) =
          ∑ σ : Equiv.Perm (Fin (m + 1)), (if σ a = b then (1 : ℕ) else 0) := by
        intro c
        refine Fintype.sum_equiv (Equiv.mulRight (Equiv.swap a c)) _ _ (fun σ => ?_)
        simp
      have e2 : ∑ c : Fin (m + 1), ∑ σ : Equiv.Perm (Fin (m + 1)), (if σ c = b then (1 : ℕ) else 0) = (m + 1).factorial := by
        rw [Finset.sum_comm]
        have : ∀ σ : Equiv.Perm (Fin (m + 1)), ∑ c, (if σ c = b then (1 : ℕ) else 0) = 1 := by
          intro σ
          rw [Finset.sum_eq_single (σ.symm b)]
          · simp
          · intro c _ hc
            rw [if_neg (fun e => hc (by rw [← e]; simp))]
          · intro h
            exact absurd (Finset.mem_univ _) h
        rw [Finset.sum_congr rfl (fun σ _ => this σ)]
        simp [Fintype.card_perm]
      rw [Finset.sum_congr rfl (fun c _ => e1 c), Finset.sum_const, Finset.card_univ, Fintype.card_fin, smul_eq_mul, Nat.factorial_succ] at e2
      exact Nat.eq_of_mul_eq_mul_left (by omega) e2
    have := key k0 i
    rw [Nat.add_sub_cancel, ← this]
    push_cast
    rfl
  rw [← h1, Finset.sum_comm, ← hc, Finset.sum_mul]
  refine Finset.sum_congr rfl (fun σ _ => ?_)
  split
  · rw [one_mul]; exact Equiv.sum_comp σ g
  · simp

theorem card_fixed {n : Nat} (i k0 : Fin n) : (∑ σ : Equiv.Perm (Fin n), if σ k0 = i then (1 : ℕ) else 0) = (n - 1).factorial := by
  have h := sum_perm (K := ℚ) (fun j => if j = i then 1 else 0) k0
  have hn : 0 < n := k0.pos
  rw [Finset.sum_ite_eq' Finset.univ i (fun _ => (1 : ℚ)), if_pos (Finset.mem_univ _), mul_one] at h
  have hn0 : (n : ℚ) ≠ 0 := Nat.cast_ne_zero.2 (by omega)
  have : (n.factorial : ℚ) = n * (n - 1).factorial := by
    rw [← Nat.cast_mul, Nat.mul_factorial_pred (by omega)]
  rw [this] at h
  have := mul_left_cancel₀ hn0 h
  exact_mod_cast this

/-- The sum over a random sample of `q` of `n` that has element `i` in it, of something that is zero for `i`. -/
theorem sum_samples_with [CharZero K] {n q : Nat} (hn : q < n) (g : Fin n → K) (i : Fin n) (hi : g i = 0) :
    ((n - 1 : Nat) : K) * ∑ σ : Equiv.Perm (Fin n), (if (σ.symm i).val < q then ∑ k : Fin n, (if k.val < q then g (σ k) else 0) else 0) =
      (q : K) * ((q - 1 : Nat) : K) * ((n - 1).factorial : K) * ∑ j, g j := by
  rcases Nat.eq_zero_or_pos q with rfl | hq0
  · simp
  have hn0 : ((n - 1 : Nat) : K) ≠ 0 := Nat.cast_ne_zero.2 (by omega)
  have h1 : ∀ σ : Equiv.Perm (Fin n), (if (σ.symm i).val < q then ∑ k : Fin n, (if k.val < q then g (σ k) else 0) else 0) =
      ∑ k0 : Fin n, ∑ k : Fin n, if k0.val < q then (if k.val < q then (if σ k0 = i then g (σ k) else 0) else 0) else 0 := by
    intro σ
    symm
    rw [Finset.sum_eq_single (σ.symm i)]
    · by_cases hc : (σ.symm i).val < q <;> simp [hc]
    · intro k0 _ hk
      have : σ k0 ≠ i := fun e => hk (by rw [← e]; simp)
      simp [this]
    · intro h
      exact absurd (Finset.mem_univ _) h
  rw [Finset.sum_congr rfl (fun σ _ => h1 σ), Finset.sum_comm]
  have h2 : ∀ k0 : Fin n, (∑ σ : Equiv.Perm (Fin n), ∑ k : Fin n, if k0.val < q then (if k.val < q then (if σ k0 = i then g (σ k) else 0) else 0) else 0) =
      if k0.val < q then ((q - 1 : Nat) : K) * (((n - 1).factorial : K) * (∑ j, g j) / (n - 1 : Nat)) else 0 := by
    intro k0
    by_cases h0 : k0.val < q
    · simp only [if_pos h0]
      rw [Finset.sum_comm]
      have h3 : ∀ k : Fin n, (∑ σ : Equiv.Perm (Fin n), if k.val < q then (if σ k0 = i then g (σ k) else 0) else 0) =
          (if k.val < q then ((n - 1).factorial : K) * (∑ j, g j) / (n - 1 : Nat) else 0) -
            if k = k0 then ((n - 1).factorial : K) * (∑ j, g j) / (n - 1 : Nat) else 0 := by
        intro k
        by_cases hk : k = k0
        · subst hk
          rw [if_pos h0, if_pos rfl, sub_self]
          refine Finset.sum_eq_zero (fun σ _ => ?_)
          rw [if_pos h0]
          split
          · rename_i e; rw [e, hi]
          · rfl
        · rw [if_neg hk, sub_zero]
          by_cases hq : k.val < q
          · simp only [if_pos hq]
            rw [eq_div_iff hn0, mul_comm, sum_perm_fixed g i k0 k hk hi]
          · simp [hq]
      rw [Finset.sum_congr rfl (fun k _ => h3 k), Finset.sum_sub_distrib, count_take (by omega), Finset.sum_ite_eq' Finset.univ k0, if_pos (Finset.mem_univ _),
        Nat.cast_pred hq0]
      ring
    · simp [h0]
  rw [Finset.sum_congr rfl (fun k _ => h2 k), count_take (by omega)]
  field_simp

variable [LinearOrder K] [IsStrictOrderedRing K]

/-- C80. The shuffles that put particle `i` into the sample: on average over these the gravity on it is too weak. -/
theorem C80_in_sample (cfg : UnbindConfig) (ph : Physics K) (hfl : ph.fl = id) (field : (Fin 3 → K) → Weighted K → K) (selfTerm : K)
    (hex : ExactGravity ph.solve field selfTerm) (hlin : ∀ x m c y, field x (m * c, y) = field x (m, y) * c)
    (sortE : List (PE K) → List (PE K)) (junk : Nat → K) (way : Nat) (body : D → Body K) (fuel : Nat) (snap : Int) (ref : Frame K) (s : Sub K D)
    (shuffle : Equiv.Perm (Fin s.particles.length) → List (Particle D) → List (Particle D)) (hperm : ∀ σ l, (shuffle σ l).Perm l)
    (hsh : ∀ σ, shuffle σ s.particles = List.ofFn (fun k => s.particles[σ k]))
    (s' : Equiv.Perm (Fin s.particles.length) → Sub K D) (f : Equiv.Perm (Fin s.particles.length) → Option (Frame K))
    (tr : Equiv.Perm (Fin s.particles.length) → List (Pass K))
    (h : ∀ σ, unbindBodies cfg ph sortE (shuffle σ) junk way body fuel snap ref s = .ok (s' σ, f σ, tr σ))
    (hn : 2 ≤ s.particles.length) (hm : ∀ b ∈ bodiesOf body s.particles, 0 < b.mass) (hq : 0 < cfg.maxSample) (hqn : cfg.maxSample < s.particles.length)
    (i : Fin s.particles.length) :
    ∃ e : Equiv.Perm (Fin s.particles.length) → K,
      (∀ σ, ∃ first rest, tr σ = first :: rest ∧ first.list[(σ.symm i).val]? = some ⟨σ.symm i, e σ⟩) ∧
      (Finset.univ.filter (fun σ : Equiv.Perm (Fin s.particles.length) => (σ.symm i).val < cfg.maxSample)).card = cfg.maxSample * (s.particles.length - 1).factorial ∧
      ∑ σ ∈ Finset.univ.filter (fun σ : Equiv.Perm (Fin s.particles.length) => (σ.symm i).val < cfg.maxSample), e σ =
        ((cfg.maxSample * (s.particles.length - 1).factorial : Nat) : K) * (specificEnergy (Physics.away ph) field (ph.hz * ph.scale) ph.withThermal ref [] (body s.particles[i].data) +
          (s.particles.length * (cfg.maxSample - 1)) / (cfg.maxSample * (s.particles.length - 1)) *
            (specificEnergy (Physics.away ph) field (ph.hz * ph.scale) ph.withThermal ref (bodiesOf body (s.particles.eraseIdx i)) (body s.particles[i].data) -
              specificEnergy (Physics.away ph) field (ph.hz * ph.scale) ph.withThermal ref [] (body s.particles[i].data))) := by
  have hcard : (Finset.univ.filter (fun σ : Equiv.Perm (Fin s.particles.length) => (σ.symm i).val < cfg.maxSample)).card =
      cfg.maxSample * (s.particles.length - 1).factorial := by
    rw [Finset.card_filter]
    have h1 : ∀ σ : Equiv.Perm (Fin s.particles.length), (if (σ.symm i).val < cfg.maxSample then 1 else 0) =
        ∑ k0 : Fin s.particles.length, if k0.val < cfg.maxSample then (if σ k0 = i then 1 else 0) else 0 := by
      intro σ
      rw [Finset.sum_eq_single (σ.symm i)]
      · simp
      · intro k0 _ hk
        have : σ k0 ≠ i := fun e => hk (by rw [← e]; simp)
        simp [this]
      · intro h
        exact absurd (Finset.mem_univ _) h
    rw [Finset.sum_congr rfl (fun σ _ => h1 σ), Finset.sum_comm]
    have h2 : ∀ k0 : Fin s.particles.length, (∑ σ : Equiv.Perm (Fin s.particles.length), if k0.val < cfg.maxSample then (if σ k0 = i then 1 else 0) else 0) =
        if k0.val < cfg.maxSample then (s.particles.length - 1).factorial else 0 := by
      intro k0
      split
      · exact card_fixed i k0
      · simp
    rw [Finset.sum_congr rfl (fun k _ => h2 k)]
    have := count_take (K := ℚ) hqn.le ((s.particles.length - 1).factorial : ℚ)
    exact_mod_cast this
  refine ⟨fun σ => _, fun σ => sampled_at cfg ph hfl field selfTerm hex hlin sortE junk way body fuel snap ref s (shuffle σ) (hperm σ) σ (hsh σ) (s' σ) (f σ) (tr σ)
    (h σ) hn hm hq hqn i, hcard, ?_⟩
  rw [Finset.sum_add_distrib, Finset.sum_const, hcard, nsmul_eq_mul, energy_pairs, add_sub_cancel_left, mul_add]
  congr 1
  have hs := sum_samples_with (K := K) hqn (pairPotential field body s.particles i) i (pairPotential_self field body s.particles i)
  rw [← Finset.mul_sum, Finset.sum_filter]
  have hn1 : (s.particles.length : K) - 1 ≠ 0 := by
    rw [← Nat.cast_pred (by omega)]
    exact Nat.cast_ne_zero.2 (by omega)
  have hq0 : (cfg.maxSample : K) ≠ 0 := Nat.cast_ne_zero.2 (by omega)
  rw [Nat.cast_pred (by omega), Nat.cast_pred hq] at hs
  rw [mul_comm] at hs
  rw [eq_div_of_mul_eq hn1 hs, Nat.cast_mul]
  field_simp

/-- `C80_in_sample` applies: the second of three bodies is in a sample of two in four of six shuffles, and over these it feels three quarters of the gravity of the others. -/
example : ∃ (e : Equiv.Perm (Fin 3) → ℚ) (tr : Equiv.Perm (Fin 3) → List (Pass ℚ)),
    (∀ σ, ∃ s f, sampleRun σ = .ok (s, f, tr σ)) ∧ (∀ σ, ∃ first rest, tr σ = first :: rest ∧ first.list[(σ.symm 1).val]? = some ⟨σ.symm 1, e σ⟩) ∧
    ∑ σ ∈ Finset.univ.filter (fun σ : Equiv.Perm (Fin 3) => (σ.symm 1).val < 2), e σ = 4 * (1 / 8 - 3 / 4 * (5 / 2)) := by
  have hrun : ∀ σ, ∃ x : Sub ℚ (Body ℚ) × Option (Frame ℚ) × List (Pass ℚ), sampleRun σ = .ok (x.1, x.2.1, x.2.2) := by
    intro σ
    obtain ⟨s, f, tr, h, _⟩ := ranAs_ok (sampleRun_ok σ)
    exact ⟨(s, f, tr), h⟩
  choose out hout using hrun
  obtain ⟨e, h1, _, h2⟩ := C80_in_sample { lineConfig with maxSample := 2 } linePhysics rfl lineField 10 lineSolver_exact lineField_linear lineSort (fun _ => 0) 0 id 9 5 atRest
    (lineSub sampleBodies) (fun σ => shuffleBy σ) (fun σ l => shuffleBy_perm σ l) (fun σ => by unfold shuffleBy; rw [dif_pos rfl]; rfl)
    (fun σ => (out σ).1) (fun σ => (out σ).2.1) (fun σ => (out σ).2.2) hout (by decide) (by
      rw [lineSub_bodies]
      intro b hb
      simp only [sampleBodies, List.mem_cons, List.not_mem_nil, or_false] at hb
      rcases hb with rfl | rfl | rfl <;> norm_num [onLine]) (by decide) (by decide) (1 : Fin 3)
  refine ⟨e, fun σ => (out σ).2.2, fun σ => ⟨_, _, hout σ⟩, h1, h2.trans ?_⟩
  decide +kernel

end HBT.Props
