import Verif.Props.UnbindEnergy
import Verif.Spec.Sample
import Mathlib.Data.Fintype.Perm
import Mathlib.Algebra.BigOperators.Fin
import Mathlib.Algebra.Order.BigOperators.Ring.Finset
/-!
# C80: energies estimated from a sample

With `MaxSampleSizeOfPotentialEstimate` below the number of particles, the first iteration of unbinding computes potentials from a sample of the particles, after a shuffle. The energy of
each particle is the one it would have if each particle of the sample stood for as many as there are particles for each in the sample; and over all shuffles it is right on average.
-/
namespace HBT.Props
open HBT HBT.Model HBT.Spec HBT.UE
variable {K D : Type} [Field K]

theorem sum_eraseIdx {α : Type} (g : α → K) : ∀ (l : List α) (k : Nat), ((l.eraseIdx k).map g).sum = (l.map g).sum - ((l[k]?).map g).getD 0 := by
  intro l
  induction l with
  | nil => intro k; simp
  | cons a l ih =>
    intro k
    cases k with
    | zero => simp
    | succ k => simp [ih]; ring

theorem sum_take {n : Nat} {α : Type} (f : Fin n → α) (g : α → K) : ∀ q, (((List.ofFn f).take q).map g).sum = ∑ k : Fin n, if k.val < q then g (f k) else 0 := by
  intro q
  induction q with
  | zero => simp
  | succ q ih =>
    rw [List.take_add_one, List.map_append, List.sum_append, ih]
    have h : ∀ k : Fin n, (if k.val < q + 1 then g (f k) else 0) = (if k.val < q then g (f k) else 0) + if k.val = q then g (f k) else 0 := by
      intro k
      rcases Nat.lt_trichotomy k.val q with h | h | h
      · simp [h, show k.val < q + 1 by omega, show k.val ≠ q by omega]
      · simp [h]
      · simp [show ¬ k.val < q + 1 by omega, show ¬ k.val < q by omega, show k.val ≠ q by omega]
    rw [Finset.sum_congr rfl (fun k _ => h k), Finset.sum_add_distrib]
    congr 1
    by_cases hq : q < n
    · rw [Finset.sum_eq_single (⟨q, hq⟩ : Fin n)]
      · simp [List.getElem?_ofFn, hq]
      · intro b _ hb
        rw [if_neg (fun e => hb (Fin.ext e))]
      · intro h
        exact absurd (Finset.mem_univ _) h
    · rw [Finset.sum_eq_zero]
      · simp [List.getElem?_ofFn, hq]
      · intro b _
        rw [if_neg (by have := b.isLt; omega)]

theorem count_take {n q : Nat} (hq : q ≤ n) (c : K) : (∑ k : Fin n, if k.val < q then c else 0) = q * c := by
  rw [← sum_take (K := K) (fun k : Fin n => k) (fun _ => c) q]
  rw [List.map_const', List.sum_replicate, List.length_take, List.length_ofFn, Nat.min_eq_left hq, nsmul_eq_mul]

/-- Over all permutations, each element is at each place equally often. -/
theorem sum_perm {n : Nat} (g : Fin n → K) (k : Fin n) : (n : K) * ∑ σ : Equiv.Perm (Fin n), g (σ k) = (n.factorial : K) * ∑ j, g j := by
  have h : ∀ m : Fin n, ∑ σ : Equiv.Perm (Fin n), g (σ m) = ∑ σ : Equiv.Perm (Fin n), g (σ k) := by
    intro m
    refine Fintype.sum_equiv (Equiv.mulRight (Equiv.swap k m)) _ _ (fun σ => ?_)
    simp
  have h1 : ∑ m : Fin n, ∑ σ : Equiv.Perm (Fin n), g (σ m) = (n : K) * ∑ σ : Equiv.Perm (Fin n), g (σ k) := by
    rw [Finset.sum_congr rfl (fun m _ => h m)]
    simp
  rw [← h1, Finset.sum_comm]
  have h2 : ∀ σ : Equiv.Perm (Fin n), ∑ m, g (σ m) = ∑ j, g j := fun σ => Equiv.sum_comp σ g
  rw [Finset.sum_congr rfl (fun σ _ => h2 σ)]
  simp [Fintype.card_perm]

/-- The sum over a random sample of `q` of `n`, scaled by `n / q`, is right on average. -/
theorem sum_samples [CharZero K] {n q : Nat} (hq : 0 < q) (hn : q ≤ n) (g : Fin n → K) :
    ∑ σ : Equiv.Perm (Fin n), (n : K) / q * (∑ k : Fin n, if k.val < q then g (σ k) else 0) = (n.factorial : K) * ∑ j, g j := by
  have k0 : Fin n := ⟨0, by omega⟩
  have hq0 : (q : K) ≠ 0 := Nat.cast_ne_zero.2 (by omega)
  have hn0 : (n : K) ≠ 0 := Nat.cast_ne_zero.2 (by omega)
  have hC : ∀ k : Fin n, ∑ σ : Equiv.Perm (Fin n), g (σ k) = (n.factorial : K) * (∑ j, g j) / n := by
    intro k
    rw [eq_div_iff hn0, mul_comm, sum_perm]
  rw [← Finset.mul_sum, Finset.sum_comm]
  have : ∀ k : Fin n, (∑ σ : Equiv.Perm (Fin n), if k.val < q then g (σ k) else 0) = if k.val < q then (n.factorial : K) * (∑ j, g j) / n else 0 := by
    intro k
    split
    · exact hC k
    · simp
  rw [Finset.sum_congr rfl (fun k _ => this k), count_take hn]
  field_simp

omit [Field K] in
theorem range_take (bs : List (Body K)) : ∀ n, n ≤ bs.length → (List.range n).filterMap (fun i => bs[i]?) = bs.take n := by
  intro n
  induction n with
  | zero => intro _; simp
  | succ n ih =>
    intro hn
    rw [List.range_succ, List.filterMap_append, ih (by omega), List.take_add_one, List.getElem?_eq_getElem (by omega)]
    simp [List.getElem?_eq_getElem (show n < bs.length by omega)]

variable [LinearOrder K] [IsStrictOrderedRing K]

/-- The full computation on the particles in their order. -/
theorem sampled_full {q : Nat} {ph : Physics K} (hfl : ph.fl = id) {field : (Fin 3 → K) → Weighted K → K} {selfTerm : K} (hex : ExactGravity ph.solve field selfTerm)
    {bs : List (Body K)} (hm : ∀ b ∈ bs, 0 < b.mass) {k : Nat} {ref : Frame K} {junk : Nat → K} {l1 : List (PE K)} (hq : 0 < q) (hqn : q < bs.length)
    (h : fullEnergies q ph bs k bs.length ref ((List.range bs.length).map (fun i => ⟨i, junk i⟩)) = .ok l1) :
    l1.length = bs.length ∧ ∀ (i : Nat) (b : Body K), bs[i]? = some b →
      l1[i]? = some ⟨i, specificEnergy (Physics.away ph) field (ph.hz * ph.scale) ph.withThermal ref ((standIns q bs).eraseIdx i) b⟩ := by
  unfold fullEnergies at h
  simp only [if_pos (show 0 < q ∧ q < bs.length from ⟨hq, hqn⟩)] at h
  obtain ⟨tree, ht, h⟩ := bind_ok_inv h
  obtain ⟨pot, hp, h⟩ := bind_ok_inv h
  obtain ⟨hn, hpid, _, hall⟩ := updateFirst_facts h
  have hlen := updateFirst_length h
  rw [List.length_map, List.length_range] at hlen
  have htree : tree = bs.take q := by
    rw [pickAll_members ht, members_map, ← List.map_take, List.map_map, List.take_range, Nat.min_eq_left (by omega)]
    simp only [Function.comp_def, List.map_id']
    exact range_take bs q (by omega)
  refine ⟨hlen, fun i b hb => ?_⟩
  have hi : i < bs.length := (List.getElem?_eq_some_iff.1 hb).1
  have hil : i < l1.length := by omega
  have hpi : l1[i].pid = i := by
    have := congrArg (fun l => l[i]?) hpid
    simp only [List.getElem?_map, List.getElem?_eq_getElem hil, List.getElem?_range hi, Option.map_some] at this
    exact Option.some.inj this
  obtain ⟨j, hj, x, hx, hxp, hf⟩ := hall l1[i] (by
    rw [List.take_of_length_le (by omega)]
    exact List.getElem_mem hil)
  have hx' : x = ⟨j, junk j⟩ := by
    rw [List.getElem?_map, List.getElem?_range hj] at hx
    exact (Option.some.inj hx).symm
  subst hx'
  have hji : j = i := by rw [← hpi, hxp]
  subst hji
  obtain ⟨b', hb', hf⟩ := bind_ok_inv hf
  have hbb : b' = b := by
    have := get_inv hb'
    rw [hb] at this
    exact (Option.some.inj this).symm
  subst hbb
  obtain ⟨E, hE, hf⟩ := bind_ok_inv hf
  unfold energyIn at hE
  obtain ⟨p, hpp, hE⟩ := bind_ok_inv hE
  rw [zero_add] at hpp
  have hu : 0 < (bs.length : K) / q := div_pos (Nat.cast_pos.2 (by omega)) (Nat.cast_pos.2 hq)
  have hsum := hex.sum k _ pot b'.pos _ p (by
    intro w hw
    obtain ⟨c, hc, rfl⟩ := List.mem_map.1 hw
    rw [htree] at hc
    exact mul_pos (hm c (List.mem_of_mem_take hc)) hu) hp hpp
  have hpot : p = (((standIns q bs).eraseIdx j).map (fun o => field b'.pos (o.mass, o.pos))).sum := by
    rw [sum_eraseIdx, hsum, htree, standIns, List.map_map, List.map_map, List.getElem?_map, List.getElem?_take]
    simp only [Function.comp_def]
    by_cases hjq : j < q
    · rw [if_pos hjq, if_pos hjq, hb]
      simp only [Option.map_some, Option.getD_some]
      rw [hex.own, sub_neg_eq_add]
    · rw [if_neg hjq, if_neg hjq]
      simp
  rw [List.getElem?_eq_getElem hil]
  congr 1
  have : l1[j] = ⟨l1[j].pid, l1[j].e⟩ := rfl
  rw [this, hpi]
  congr 1
  injection hE with hE
  injection hf with hf
  rw [← hf, ← hE, hfl]
  simp only [id]
  unfold specificEnergy Physics.velocity relativeVelocity vecDot Physics.away
  rw [hpot]
  split <;> ring

/-- C80. In the first iteration the energy of each particle is the one in the frame at the start, with the gravity of the sample: of the first `MaxSampleSizeOfPotentialEstimate` particles
after the shuffle, without the particle itself, each with the mass of all the particles it stands for. -/
theorem C80_sampled (cfg : UnbindConfig) (ph : Physics K) (hfl : ph.fl = id) (field : (Fin 3 → K) → Weighted K → K) (selfTerm : K)
    (hex : ExactGravity ph.solve field selfTerm) (sortE : List (PE K) → List (PE K)) (shuffle : List (Particle D) → List (Particle D))
    (hsh : ∀ l, (shuffle l).Perm l) (junk : Nat → K) (way : Nat) (body : D → Body K) (fuel : Nat) (snap : Int) (ref : Frame K) (s s' : Sub K D)
    (f : Option (Frame K)) (tr : List (Pass K)) (h : unbindBodies cfg ph sortE shuffle junk way body fuel snap ref s = .ok (s', f, tr))
    (hn : 2 ≤ s.particles.length) (hm : ∀ b ∈ bodiesOf body s.particles, 0 < b.mass) (hq : 0 < cfg.maxSample) (hqn : cfg.maxSample < s.particles.length) :
    ∃ first rest, tr = first :: rest ∧ first.frame = ref ∧ first.list.length = s.particles.length ∧
      ∀ (i : Nat) (b : Body K), (bodiesOf body (shuffle s.particles))[i]? = some b →
        first.list[i]? = some ⟨i, specificEnergy (Physics.away ph) field (ph.hz * ph.scale) ph.withThermal ref
          ((standIns cfg.maxSample (bodiesOf body (shuffle s.particles))).eraseIdx i) b⟩ := by
  unfold unbindBodies at h
  simp only at h
  have hps : (if s.particles.length < cfg.minNum then die snap s else s).particles = s.particles := by
    unfold die
    split_ifs <;> rfl
  rw [hps] at h
  have hlen : (bodiesOf body (shuffle s.particles)).length = s.particles.length := by
    unfold bodiesOf
    rw [List.length_map, (hsh _).length_eq]
  have hrun : ∃ res, unbindPasses cfg ph sortE (bodiesOf body (shuffle s.particles)) fuel 0 none ref
      ((List.range (bodiesOf body (shuffle s.particles)).length).map (fun i => ⟨i, junk i⟩)) (bodiesOf body (shuffle s.particles)).length
      (bodiesOf body (shuffle s.particles)).length = .ok (tr, res) := by
    rw [hlen]
    rcases hs : s.particles with _ | ⟨p0, _ | ⟨p1, ps⟩⟩
    · rw [hs] at hn; simp at hn
    · rw [hs] at hn; simp at hn
    · rw [hs] at h
      simp only at h
      rw [← hs, if_pos ⟨hq, hqn⟩] at h
      obtain ⟨⟨tr', res⟩, hrun, h⟩ := bind_ok_inv h
      rw [← hs]
      cases res with
      | none =>
        simp only at h
        obtain ⟨ps', _, h⟩ := bind_ok_inv h
        cases h
        exact ⟨none, hrun⟩
      | some r =>
        obtain ⟨l, nb, g⟩ := r
        simp only at h
        obtain ⟨ps', hpick, h⟩ := bind_ok_inv h
        cases h
        exact ⟨_, hrun⟩
  obtain ⟨res, hrun⟩ := hrun
  cases fuel with
  | zero => cases hrun
  | succ fuel =>
    obtain ⟨l1, r1, L, nb, st⟩ := step_of hrun
    obtain ⟨hl1, hall⟩ := sampled_full hfl hex (bs := bodiesOf body (shuffle s.particles)) (by
      intro b hb
      obtain ⟨p, hp, rfl⟩ := List.mem_map.1 hb
      exact hm _ (List.mem_map_of_mem ((hsh _).mem_iff.1 hp))) hq (by omega) st.energies
    have htake : l1.take (bodiesOf body (shuffle s.particles)).length = l1 := List.take_of_length_le (by omega)
    rcases st.next with ⟨_, htr, _⟩ | ⟨_, _, htr, _⟩ | ⟨_, _, tr', htr, _⟩
    all_goals
      rw [htake] at htr
      exact ⟨_, _, htr, rfl, by simp only; omega, hall⟩

/-- The potential at particle `i` of particle `j`, in proportion to its mass; none of its own. -/
def pairPotential (field : (Fin 3 → K) → Weighted K → K) (body : D → Body K) (ps : List (Particle D)) (i j : Fin ps.length) : K :=
  field (body ps[i].data).pos ((body ps[j].data).mass, (body ps[j].data).pos) -
    if j = i then field (body ps[i].data).pos ((body ps[i].data).mass, (body ps[i].data).pos) else 0

omit [LinearOrder K] [IsStrictOrderedRing K] in
theorem pairPotential_self (field : (Fin 3 → K) → Weighted K → K) (body : D → Body K) (ps : List (Particle D)) (i : Fin ps.length) :
    pairPotential field body ps i i = 0 := by
  unfold pairPotential
  simp

omit [LinearOrder K] [IsStrictOrderedRing K] in
theorem energy_split (away : (Fin 3 → K) → (Fin 3 → K) → Fin 3 → K) (field : (Fin 3 → K) → Weighted K → K) (hubble : K) (warm : Bool) (ref : Frame K)
    (others : List (Body K)) (b : Body K) :
    specificEnergy away field hubble warm ref others b = specificEnergy away field hubble warm ref [] b + sumOf field b.pos others := by
  unfold specificEnergy sumOf
  simp only [List.map_nil, List.sum_nil]
  ring

omit [LinearOrder K] [IsStrictOrderedRing K] in
theorem energy_pairs (away : (Fin 3 → K) → (Fin 3 → K) → Fin 3 → K) (field : (Fin 3 → K) → Weighted K → K) (hubble : K) (warm : Bool) (ref : Frame K)
    (body : D → Body K) (ps : List (Particle D)) (i : Fin ps.length) :
    specificEnergy away field hubble warm ref (bodiesOf body (ps.eraseIdx i)) (body ps[i].data) =
      specificEnergy away field hubble warm ref [] (body ps[i].data) + ∑ j, pairPotential field body ps i j := by
  rw [energy_split]
  congr 1
  have : bodiesOf body (ps.eraseIdx i) = (List.ofFn (fun j : Fin ps.length => body ps[j].data)).eraseIdx i := by
    unfold bodiesOf
    rw [← List.eraseIdx_map]
    congr 1
    apply List.ext_getElem (by simp)
    intro a h1 h2
    simp
  unfold sumOf
  rw [this, sum_eraseIdx, List.getElem?_ofFn, dif_pos i.isLt]
  simp only [pairPotential, Finset.sum_sub_distrib]
  rw [List.map_ofFn, List.sum_ofFn]
  simp

/-- The energy of particle `i` in the first iteration, if the shuffle puts particle `σ k` at place `k`. -/
theorem sampled_at (cfg : UnbindConfig) (ph : Physics K) (hfl : ph.fl = id) (field : (Fin 3 → K) → Weighted K → K) (selfTerm : K)
    (hex : ExactGravity ph.solve field selfTerm) (hlin : ∀ x m c y, field x (m * c, y) = field x (m, y) * c)
    (sortE : List (PE K) → List (PE K)) (junk : Nat → K) (way : Nat) (body : D → Body K) (fuel : Nat) (snap : Int) (ref : Frame K) (s : Sub K D)
    (shuffle : List (Particle D) → List (Particle D)) (hperm : ∀ l, (shuffle l).Perm l) (σ : Equiv.Perm (Fin s.particles.length))
    (hsh : shuffle s.particles = List.ofFn (fun k => s.particles[σ k])) (s' : Sub K D) (f : Option (Frame K)) (tr : List (Pass K))
    (h : unbindBodies cfg ph sortE shuffle junk way body fuel snap ref s = .ok (s', f, tr))
    (hn : 2 ≤ s.particles.length) (hm : ∀ b ∈ bodiesOf body s.particles, 0 < b.mass) (hq : 0 < cfg.maxSample) (hqn : cfg.maxSample < s.particles.length)
    (i : Fin s.particles.length) :
    ∃ first rest, tr = first :: rest ∧ first.list[(σ.symm i).val]? = some ⟨σ.symm i,
      specificEnergy (Physics.away ph) field (ph.hz * ph.scale) ph.withThermal ref [] (body s.particles[i].data) +
        (s.particles.length : K) / cfg.maxSample * (∑ k : Fin s.particles.length, if k.val < cfg.maxSample then pairPotential field body s.particles i (σ k) else 0)⟩ := by
  obtain ⟨first, tl, h1, _, _, h2⟩ := C80_sampled cfg ph hfl field selfTerm hex sortE shuffle hperm junk way body fuel snap ref s s' f tr h hn hm hq hqn
  refine ⟨first, tl, h1, ?_⟩
  have hbs : bodiesOf body (shuffle s.particles) = List.ofFn (fun k => body s.particles[σ k].data) := by
    rw [hsh, bodiesOf, List.map_ofFn]
    rfl
  have h3 := h2 (σ.symm i).val (body s.particles[i].data) (by
    rw [hbs, List.getElem?_ofFn, dif_pos (σ.symm i).isLt]
    simp)
  set b := body s.particles[i].data with hb
  let g : Fin s.particles.length → K := fun j => field b.pos ((body s.particles[j].data).mass, (body s.particles[j].data).pos)
  rw [h3, energy_split]
  congr 3
  unfold sumOf
  rw [sum_eraseIdx, standIns, hbs, List.length_ofFn, List.map_map]
  have hu : ∀ c : Body K, ((fun o : Body K => field b.pos (o.mass, o.pos)) ∘ fun b : Body K => { b with mass := b.mass * ((s.particles.length : K) / cfg.maxSample) }) c =
      field b.pos (c.mass, c.pos) * ((s.particles.length : K) / cfg.maxSample) := fun c => hlin _ _ _ _
  rw [List.map_congr_left (fun c _ => hu c), sum_take, List.getElem?_map, List.getElem?_take, List.getElem?_ofFn, dif_pos (σ.symm i).isLt]
  have hG : (∑ k : Fin s.particles.length, if k.val < cfg.maxSample then pairPotential field body s.particles i (σ k) else 0) =
      (∑ k : Fin s.particles.length, if k.val < cfg.maxSample then g (σ k) else 0) - if (σ.symm i).val < cfg.maxSample then g i else 0 := by
    have : ∀ k : Fin s.particles.length, (if k.val < cfg.maxSample then pairPotential field body s.particles i (σ k) else 0) =
        (if k.val < cfg.maxSample then g (σ k) else 0) - if k = σ.symm i then (if (σ.symm i).val < cfg.maxSample then g i else 0) else 0 := by
      intro k
      simp only [pairPotential]
      by_cases hk : k = σ.symm i
      · subst hk
        by_cases hc : (σ.symm i).val < cfg.maxSample <;> simp [hc]
      · have : σ k ≠ i := fun e => hk (by rw [← e]; simp)
        by_cases hc : k.val < cfg.maxSample <;> simp [hc, hk, this, g, hb]
    rw [Finset.sum_congr rfl (fun k _ => this k), Finset.sum_sub_distrib]
    simp
  rw [hG, mul_sub, Finset.mul_sum]
  congr 1
  · refine Finset.sum_congr rfl (fun k _ => ?_)
    split
    · simp only [g]; ring
    · ring
  · by_cases hc : (σ.symm i).val < cfg.maxSample
    · simp only [if_pos hc, Option.map_some, Option.getD_some, g, Fin.eta, Equiv.apply_symm_apply]
      rw [hlin]
      ring
    · simp [hc]

/-- C80. On average over all shuffles this is the energy with the gravity of all the other particles: for each particle `i`, in the runs for all permutations `σ` of the particles (that
put particle `σ k` at place `k`), the energies found for it add up to as many times its energy as there are permutations. -/
theorem C80_unbiased (cfg : UnbindConfig) (ph : Physics K) (hfl : ph.fl = id) (field : (Fin 3 → K) → Weighted K → K) (selfTerm : K)
    (hex : ExactGravity ph.solve field selfTerm) (hlin : ∀ x m c y, field x (m * c, y) = field x (m, y) * c)
    (sortE : List (PE K) → List (PE K)) (junk : Nat → K) (way : Nat) (body : D → Body K) (fuel : Nat) (snap : Int) (ref : Frame K) (s : Sub K D)
    (shuffle : Equiv.Perm (Fin s.particles.length) → List (Particle D) → List (Particle D)) (hperm : ∀ σ l, (shuffle σ l).Perm l)
    (hsh : ∀ σ, shuffle σ s.particles = List.ofFn (fun k => s.particles[σ k]))
    (s' : Equiv.Perm (Fin s.particles.length) → Sub K D) (f : Equiv.Perm (Fin s.particles.length) → Option (Frame K))
    (tr : Equiv.Perm (Fin s.particles.length) → List (Pass K))
    (h : ∀ σ, unbindBodies cfg ph sortE (shuffle σ) junk way body fuel snap ref s = .ok (s' σ, f σ, tr σ))
    (hn : 2 ≤ s.particles.length) (hm : ∀ b ∈ bodiesOf body s.particles, 0 < b.mass) (hq : 0 < cfg.maxSample) (hqn : cfg.maxSample < s.particles.length)
    (i : Fin s.particles.length) :
    ∃ e : Equiv.Perm (Fin s.particles.length) → K,
      (∀ σ, ∃ first rest, tr σ = first :: rest ∧ first.list[(σ.symm i).val]? = some ⟨σ.symm i, e σ⟩) ∧
      ∑ σ, e σ = (s.particles.length.factorial : K) * specificEnergy (Physics.away ph) field (ph.hz * ph.scale) ph.withThermal ref
        (bodiesOf body (s.particles.eraseIdx i)) (body s.particles[i].data) := by
  refine ⟨fun σ => _, fun σ => sampled_at cfg ph hfl field selfTerm hex hlin sortE junk way body fuel snap ref s (shuffle σ) (hperm σ) σ (hsh σ) (s' σ) (f σ) (tr σ)
    (h σ) hn hm hq hqn i, ?_⟩
  rw [Finset.sum_add_distrib, sum_samples hq (by omega), energy_pairs, mul_add]
  congr 1
  simp [Fintype.card_perm]

/-- C80. The octree of the program with opening angle 0 meets what `C80_sampled` and `C80_unbiased` ask of the gravity solver: it adds up the potentials of single bodies, and these are in
proportion to mass. -/
theorem C80_tree [FloorRing K] (periodic : Bool) (L : K) (sqrt : K → K) (hq : sqrt 0 = 0) (soft : K) (hsoft : 0 < soft) (G scale : K)
    (res resHalf : K) (hres : res = 2 * resHalf) (rand : Nat → Nat → Nat) (old : Nat → List Int) (fuel : Nat) (hL : periodic = true → 0 < L) :
    ∃ field selfTerm, ExactGravity (treeSolver periodic L sqrt soft 0 G scale res resHalf rand old fuel) field selfTerm ∧
      ∀ x m c y, field x (m * c, y) = field x (m, y) * c := by
  refine ⟨_, _, C76_tree_exact periodic L sqrt hq soft hsoft G scale res resHalf hres rand old fuel hL, fun x m c y => ?_⟩
  have : ∀ r2, softPotential sqrt soft (m * c) r2 = softPotential sqrt soft m r2 * c := by
    intro r2
    unfold softPotential
    simp only
    split <;> ring
  simp only [this]
  ring

end HBT.Props
