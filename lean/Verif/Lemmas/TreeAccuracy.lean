import Verif.Lemmas.Spline
import Verif.Lemmas.OctRoot
/-!
# Clusters against the direct sum (C77)
-/
namespace HBT.Spl
open HBT.Model HBT.Spec HBT.OT
variable {K : Type} [Field K] [LinearOrder K] [IsStrictOrderedRing K]

/-- The constants of the code are those of the spline up to 12 digits. -/
theorem soft_kernel {sqrt : K → K} (hr : IsRoot sqrt) {soft : K} (hs : 0 < soft) {mass r2 : K} (hm : 0 ≤ mass) (h2 : 0 ≤ r2) :
    (1 - 2 / 10 ^ 12) * (mass * splineKernel (sqrt r2 / (28 / 10 * soft)) / (28 / 10 * soft)) ≤ -softPotential sqrt soft mass r2 ∧
    -softPotential sqrt soft mass r2 ≤ (1 + 2 / 10 ^ 12) * (mass * splineKernel (sqrt r2 / (28 / 10 * soft)) / (28 / 10 * soft)) := by
  obtain ⟨hr0, _⟩ := hr r2 h2
  have hh : (0 : K) < 28 / 10 * soft := by positivity
  unfold softPotential
  simp only
  generalize sqrt r2 = r at *
  generalize (28 / 10 * soft : K) = h at *
  by_cases hfar : r ≥ h
  · rw [if_pos hfar, neg_neg]
    have h1 : 1 ≤ r / h := (one_le_div hh).2 hfar
    have hrp : 0 < r := by linarith
    have e : mass * splineKernel (r / h) / h = mass / r := by
      rw [kernel_far h1]
      field_simp
    rw [e]
    have h0 : 0 ≤ mass / r := div_nonneg hm hr0
    constructor <;> nlinarith
  · rw [if_neg hfar]
    have hu0 : 0 ≤ r / h := div_nonneg hr0 hh.le
    have hu1 : r / h < 1 := (div_lt_one hh).2 (not_le.1 hfar)
    have eu : r * (1 / h) = r / h := by ring
    rw [eu]
    have hge := kernel_ge_one hu0 hu1.le
    generalize r / h = u at *
    have key : ∀ wp : K, |(-wp) - splineKernel u| ≤ 2 / 10 ^ 12 →
        (1 - 2 / 10 ^ 12) * (mass * splineKernel u / h) ≤ -(mass * (1 / h) * wp) ∧ -(mass * (1 / h) * wp) ≤ (1 + 2 / 10 ^ 12) * (mass * splineKernel u / h) := by
      intro wp hwp
      obtain ⟨a, b⟩ := abs_le.1 hwp
      have hmh : 0 ≤ mass / h := div_nonneg hm hh.le
      have e1 : -(mass * (1 / h) * wp) = mass / h * (-wp) := by ring
      have e2 : mass * splineKernel u / h = mass / h * splineKernel u := by ring
      rw [e1, e2]
      constructor
      · have : (1 - 2 / 10 ^ 12) * splineKernel u ≤ -wp := by
          have : (2 : K) / 10 ^ 12 * 1 ≤ 2 / 10 ^ 12 * splineKernel u := mul_le_mul_of_nonneg_left hge (by positivity)
          linarith
        calc (1 - 2 / 10 ^ 12) * (mass / h * splineKernel u) = mass / h * ((1 - 2 / 10 ^ 12) * splineKernel u) := by ring
          _ ≤ _ := mul_le_mul_of_nonneg_left this hmh
      · have : -wp ≤ (1 + 2 / 10 ^ 12) * splineKernel u := by
          have : (2 : K) / 10 ^ 12 * 1 ≤ 2 / 10 ^ 12 * splineKernel u := mul_le_mul_of_nonneg_left hge (by positivity)
          linarith
        calc mass / h * -wp ≤ mass / h * ((1 + 2 / 10 ^ 12) * splineKernel u) := mul_le_mul_of_nonneg_left this hmh
          _ = _ := by ring
    refine key _ ?_
    have hu2 : u ^ 2 ≤ 1 := pow_le_one₀ hu0 hu1.le
    have hu2' : 0 ≤ u ^ 2 := by positivity
    unfold splineKernel
    by_cases hh2 : u < 1 / 2
    · rw [if_pos hh2, if_pos hh2]
      have e : -(-(28 / 10) + u * u * (5333333333333 / 1000000000000 + u * u * (64 / 10 * u - 96 / 10))) -
          (14 / 5 - 16 / 3 * u ^ 2 + 48 / 5 * u ^ 4 - 32 / 5 * u ^ 5) = u ^ 2 * (1 / (3 * 10 ^ 12)) := by ring
      rw [e, abs_of_nonneg (by positivity)]
      calc u ^ 2 * (1 / (3 * 10 ^ 12)) ≤ 1 * (1 / (3 * 10 ^ 12)) := mul_le_mul_of_nonneg_right hu2 (by positivity)
        _ ≤ _ := by norm_num
    · rw [if_neg hh2, if_neg hh2, if_pos hu1]
      have hup : 0 < u := by
        have := not_lt.1 hh2
        have h12 : (0 : K) < 1 / 2 := by norm_num
        linarith
      have hu5 : u ^ 5 ≤ 1 := pow_le_one₀ hu0 hu1.le
      have hu5' : 0 ≤ u ^ 5 := by positivity
      have hinv : 1 / u ≤ 2 := by
        rw [div_le_iff₀ hup]
        have := not_lt.1 hh2
        linarith
      have hinv0 : 0 ≤ 1 / u := by positivity
      have e : -(-(32 / 10) + 66666666667 / 1000000000000 / u + u * u * (10666666666667 / 1000000000000 +
          u * (-16 + u * (96 / 10 - 2133333333333 / 1000000000000 * u)))) -
          (16 / 5 - 1 / (15 * u) - 32 / 3 * u ^ 2 + 16 * u ^ 3 - 48 / 5 * u ^ 4 + 32 / 15 * u ^ 5) =
          -((1 / u + u ^ 2 + u ^ 5) * (1 / (3 * 10 ^ 12))) := by
        field_simp
        ring
      rw [e, abs_neg, abs_of_nonneg (by positivity)]
      calc (1 / u + u ^ 2 + u ^ 5) * (1 / (3 * 10 ^ 12)) ≤ 4 * (1 / (3 * 10 ^ 12)) := mul_le_mul_of_nonneg_right (by linarith) (by positivity)
        _ ≤ _ := by norm_num

/-- The potential at two distances that differ by a factor of at most `1 ± s`. -/
theorem kernel_close {s h r d : K} (hs0 : 0 ≤ s) (hs1 : s < 1) (hh : 0 < h) (hr : 0 ≤ r) (h1 : d ≤ (1 + s) * r) (h2 : (1 - s) * r ≤ d) :
    (1 - s) * splineKernel (d / h) ≤ splineKernel (r / h) ∧ splineKernel (r / h) ≤ (1 + s) * splineKernel (d / h) := by
  have hd : 0 ≤ d := le_trans (mul_nonneg (by linarith) hr) h2
  have hu : 0 ≤ r / h := div_nonneg hr hh.le
  have hv : 0 ≤ d / h := div_nonneg hd hh.le
  have g1 : d / h ≤ (1 + s) * (r / h) := by
    rw [← mul_div_assoc]; exact div_le_div_of_nonneg_right h1 hh.le
  have g2 : (1 - s) * (r / h) ≤ d / h := by
    rw [← mul_div_assoc]; exact div_le_div_of_nonneg_right h2 hh.le
  generalize r / h = u at *
  generalize d / h = v at *
  have hkv := kernel_pos hv
  rcases eq_or_lt_of_le hu with h0 | h0
  · rw [← h0] at g1 g2 ⊢
    have : v = 0 := le_antisymm (by linarith) (by linarith)
    rw [this] at hkv ⊢
    constructor <;> nlinarith
  · constructor
    · have a := kernel_anti (mul_nonneg (by linarith) hu : 0 ≤ (1 - s) * u) g2
      have b := kernel_mono (mul_nonneg (by linarith) hu : 0 ≤ (1 - s) * u) (by nlinarith : (1 - s) * u ≤ u)
      have c : u * ((1 - s) * splineKernel v) ≤ u * splineKernel u := by
        calc u * ((1 - s) * splineKernel v) = ((1 - s) * u) * splineKernel v := by ring
          _ ≤ ((1 - s) * u) * splineKernel ((1 - s) * u) := mul_le_mul_of_nonneg_left a (mul_nonneg (by linarith) hu)
          _ ≤ _ := b
      exact le_of_mul_le_mul_left c h0
    · have a := kernel_anti hv g1
      have b := kernel_mono hu (by nlinarith : u ≤ (1 + s) * u)
      have c : u * splineKernel u ≤ u * ((1 + s) * splineKernel v) := by
        calc u * splineKernel u ≤ (1 + s) * u * splineKernel ((1 + s) * u) := b
          _ ≤ (1 + s) * u * splineKernel v := mul_le_mul_of_nonneg_left a (mul_nonneg (by linarith) hu)
          _ = _ := by ring
      exact le_of_mul_le_mul_left c h0

omit [LinearOrder K] [IsStrictOrderedRing K] in
theorem cauchy_id (a b c x y z : K) : (a ^ 2 + b ^ 2 + c ^ 2) * (x ^ 2 + y ^ 2 + z ^ 2) - (a * x + b * y + c * z) ^ 2 =
    (a * y - b * x) ^ 2 + (a * z - c * x) ^ 2 + (b * z - c * y) ^ 2 := by ring

/-- The triangle inequality. -/
theorem triangle {sqrt : K → K} (hr : IsRoot sqrt) (y z t : Fin 3 → K) : sqrt (sqDist z t) ≤ sqrt (sqDist y t) + sqrt (sqDist y z) := by
  have pos : ∀ a b : Fin 3 → K, 0 ≤ sqDist a b := fun a b => by unfold sqDist; positivity
  obtain ⟨a0, a1⟩ := hr _ (pos z t)
  obtain ⟨b0, b1⟩ := hr _ (pos y t)
  obtain ⟨c0, c1⟩ := hr _ (pos y z)
  have hc := cauchy_id (y 0 - t 0) (y 1 - t 1) (y 2 - t 2) (z 0 - y 0) (z 1 - y 1) (z 2 - y 2)
  have e1 : sqDist z t = sqDist y t + 2 * ((y 0 - t 0) * (z 0 - y 0) + (y 1 - t 1) * (z 1 - y 1) + (y 2 - t 2) * (z 2 - y 2)) + sqDist y z := by
    unfold sqDist; ring
  have e2 : (z 0 - y 0) ^ 2 + (z 1 - y 1) ^ 2 + (z 2 - y 2) ^ 2 = sqDist y z := by unfold sqDist; ring
  have e3 : (y 0 - t 0) ^ 2 + (y 1 - t 1) ^ 2 + (y 2 - t 2) ^ 2 = sqDist y t := rfl
  rw [e2, e3] at hc
  generalize (y 0 - t 0) * (z 0 - y 0) + (y 1 - t 1) * (z 1 - y 1) + (y 2 - t 2) * (z 2 - y 2) = X at *
  have hX : X ^ 2 ≤ (sqrt (sqDist y t) * sqrt (sqDist y z)) ^ 2 := by
    have e4 : (sqrt (sqDist y t) * sqrt (sqDist y z)) ^ 2 = (sqrt (sqDist y t) * sqrt (sqDist y t)) * (sqrt (sqDist y z) * sqrt (sqDist y z)) := by ring
    rw [e4, b1, c1]
    have : 0 ≤ sqDist y t * sqDist y z - X ^ 2 := by rw [hc]; positivity
    linarith
  have hX' := abs_le_of_sq_le_sq' hX (mul_nonneg b0 c0)
  refine le_of_sq_le_sq ?_ (add_nonneg b0 c0)
  nlinarith [hX'.2]

theorem root_mono {sqrt : K → K} (hr : IsRoot sqrt) {a b : K} (h0 : 0 ≤ a) (h : a ≤ b) : sqrt a ≤ sqrt b := by
  obtain ⟨a0, a1⟩ := hr _ h0
  obtain ⟨b0, b1⟩ := hr _ (le_trans h0 h)
  refine le_of_sq_le_sq ?_ b0
  nlinarith

/-- Separations obey the triangle inequality. -/
theorem separation_triangle {sqrt : K → K} (hr : IsRoot sqrt) {periodic : Bool} {L : K} {y z t : Fin 3 → K} {a b : K} (ha : Separation periodic L y t a)
    (hb : Separation periodic L z t b) : sqrt b ≤ sqrt a + sqrt (sqDist y z) := by
  have pos : ∀ a b : Fin 3 → K, 0 ≤ sqDist a b := fun a b => by unfold sqDist; positivity
  unfold Separation at ha hb
  cases periodic with
  | false =>
    simp only [Bool.false_eq_true, if_false] at ha hb
    rw [ha, hb]
    exact triangle hr y z t
  | true =>
    simp only [if_true] at ha hb
    obtain ⟨⟨k, hk⟩, _⟩ := ha
    obtain ⟨⟨k', hk'⟩, hmin⟩ := hb
    have h1 := root_mono hr (by rw [hk']; exact pos _ _) (hmin k)
    have h2 := triangle hr (image L k y) (image L k z) t
    have e : sqDist (image L k y) (image L k z) = sqDist y z := by unfold sqDist image; ring
    rw [e, ← hk] at h2
    exact le_trans h1 h2

/-- A cluster is as far away as its members, up to a factor. -/
theorem cluster_close [FloorRing K] {sqrt : K → K} (hr : IsRoot sqrt) {periodic : Bool} {L angle2 s : K} (hs0 : 0 ≤ s) (hs : 3 * angle2 ≤ s ^ 2)
    {m : Nat → K} {x : Nat → Fin 3 → K} {target : Fin 3 → K} {cl : Cluster K} (hm : ∀ p ∈ cl.members, 0 < m p)
    (hc : IsCentre m x cl.members cl.centre) (hsep : Separation periodic L cl.centre target cl.sep2) (ha : cl.Allowed angle2 x)
    {p : Nat} (hp : p ∈ cl.members) {d2 : K} (hd : Separation periodic L (x p) target d2) :
    sqrt d2 ≤ (1 + s) * sqrt cl.sep2 ∧ (1 - s) * sqrt cl.sep2 ≤ sqrt d2 := by
  have pos : ∀ a b : Fin 3 → K, 0 ≤ sqDist a b := fun a b => by unfold sqDist; positivity
  have hsep0 : 0 ≤ cl.sep2 := by
    unfold Separation at hsep
    cases periodic with
    | false => simp only [Bool.false_eq_true, if_false] at hsep; rw [hsep]; exact pos _ _
    | true => simp only [if_true] at hsep; obtain ⟨⟨k, hk⟩, _⟩ := hsep; rw [hk]; exact pos _ _
  obtain ⟨r0, r1⟩ := hr _ hsep0
  have hsym : sqDist (x p) cl.centre = sqDist cl.centre (x p) := by unfold sqDist; ring
  have h1 := separation_triangle hr hsep hd
  have h2 := separation_triangle hr hd hsep
  rw [hsym] at h2
  have hgap : sqrt (sqDist cl.centre (x p)) ≤ s * sqrt cl.sep2 := by
    obtain ⟨g0, g1⟩ := hr _ (pos cl.centre (x p))
    refine le_of_sq_le_sq ?_ (mul_nonneg hs0 r0)
    have hbound : sqDist cl.centre (x p) ≤ s ^ 2 * cl.sep2 := by
      rcases ha with ⟨q, hq⟩ | ⟨len, hl, hlen, hz⟩
      · have hpq : ∀ q' ∈ cl.members, x q' = x p := by
          rw [hq] at hp ⊢
          simp only [List.mem_singleton] at hp ⊢
          rintro _ rfl
          rw [hp]
        have : cl.centre = x p := by
          funext d
          have := centre_between hc hm (List.ne_nil_of_mem hp) d (lo := x p d) (hi := x p d) (fun q hq => by
            rw [hpq q hq]; exact ⟨le_rfl, le_rfl⟩)
          exact le_antisymm this.2 this.1
        rw [this]
        have e : sqDist (x p) (x p) = 0 := by unfold sqDist; ring
        rw [e]
        positivity
      · have hd' : ∀ d, (cl.centre d - x p d) ^ 2 ≤ len ^ 2 := by
          intro d
          have := centre_between hc hm (List.ne_nil_of_mem hp) d (lo := x p d - len) (hi := x p d + len) (fun q hq => by
            have := abs_le.1 (hlen q hq p hp d)
            constructor <;> linarith)
          refine sq_le_sq' (by linarith) (by linarith)
        have : sqDist cl.centre (x p) ≤ 3 * len ^ 2 := by
          unfold sqDist
          linarith [hd' 0, hd' 1, hd' 2]
        have h3 : 3 * angle2 * cl.sep2 ≤ s ^ 2 * cl.sep2 := mul_le_mul_of_nonneg_right hs hsep0
        linarith
    nlinarith
  constructor <;> linarith

/-- The potentials of clusters against the direct sum over their members. -/
theorem clusters_close [FloorRing K] {sqrt : K → K} (hr : IsRoot sqrt) {soft : K} (hsoft : 0 < soft) {periodic : Bool} {L angle2 s : K} (hs0 : 0 ≤ s) (hs1 : s < 1)
    (hs : 3 * angle2 ≤ s ^ 2) {m : Nat → K} {x : Nat → Fin 3 → K} {target : Fin 3 → K} {d2 : Nat → K} : ∀ {cls : List (Cluster K)},
    (∀ cl ∈ cls, ∀ p ∈ cl.members, 0 < m p ∧ Separation periodic L (x p) target (d2 p)) → (∀ cl ∈ cls, IsCentre m x cl.members cl.centre) →
    (∀ cl ∈ cls, Separation periodic L cl.centre target cl.sep2) → (∀ cl ∈ cls, cl.Allowed angle2 x) →
    (1 - s) * (1 - 2 / 10 ^ 12) * directSum (28 / 10 * soft) m (fun p => sqrt (d2 p)) (cls.map Cluster.members).flatten ≤ -clusterPot sqrt soft m cls ∧
    -clusterPot sqrt soft m cls ≤ (1 + s) * (1 + 2 / 10 ^ 12) * directSum (28 / 10 * soft) m (fun p => sqrt (d2 p)) (cls.map Cluster.members).flatten := by
  intro cls
  induction cls with
  | nil => intro _ _ _ _; simp [clusterPot, directSum]
  | cons cl cls ih =>
    intro h1 h2 h3 h4
    obtain ⟨i1, i2⟩ := ih (fun c hc => h1 c (List.mem_cons_of_mem _ hc)) (fun c hc => h2 c (List.mem_cons_of_mem _ hc))
      (fun c hc => h3 c (List.mem_cons_of_mem _ hc)) (fun c hc => h4 c (List.mem_cons_of_mem _ hc))
    have hm : ∀ p ∈ cl.members, 0 < m p := fun p hp => (h1 cl List.mem_cons_self p hp).1
    have hh : (0 : K) < 28 / 10 * soft := by positivity
    have pos : ∀ a b : Fin 3 → K, 0 ≤ sqDist a b := fun a b => by unfold sqDist; positivity
    have hsep0 : 0 ≤ cl.sep2 := by
      have hsep := h3 cl List.mem_cons_self
      unfold Separation at hsep
      cases periodic with
      | false => simp only [Bool.false_eq_true, if_false] at hsep; rw [hsep]; exact pos _ _
      | true => simp only [if_true] at hsep; obtain ⟨⟨k, hk⟩, _⟩ := hsep; rw [hk]; exact pos _ _
    have hM : 0 ≤ totalMass m cl.members := List.sum_nonneg (fun a ha => by
      obtain ⟨p, hp, rfl⟩ := List.mem_map.1 ha
      exact (hm p hp).le)
    obtain ⟨k1, k2⟩ := soft_kernel hr hsoft hM hsep0
    -- one cluster
    have one : ∀ l : List Nat, (∀ p ∈ l, p ∈ cl.members) →
        (1 - s) * directSum (28 / 10 * soft) m (fun p => sqrt (d2 p)) l ≤ totalMass m l * splineKernel (sqrt cl.sep2 / (28 / 10 * soft)) / (28 / 10 * soft) ∧
        totalMass m l * splineKernel (sqrt cl.sep2 / (28 / 10 * soft)) / (28 / 10 * soft) ≤ (1 + s) * directSum (28 / 10 * soft) m (fun p => sqrt (d2 p)) l := by
      intro l
      induction l with
      | nil => intro _; simp [directSum, totalMass]
      | cons p l ihl =>
        intro hl
        obtain ⟨j1, j2⟩ := ihl (fun q hq => hl q (List.mem_cons_of_mem _ hq))
        have hp := hl p List.mem_cons_self
        obtain ⟨c1, c2⟩ := cluster_close hr hs0 hs hm (h2 cl List.mem_cons_self) (h3 cl List.mem_cons_self) (h4 cl List.mem_cons_self) hp
          (h1 cl List.mem_cons_self p hp).2
        obtain ⟨q1, q2⟩ := kernel_close hs0 hs1 hh (hr _ hsep0).1 c1 c2
        have hmp : 0 ≤ m p / (28 / 10 * soft) := div_nonneg (hm p hp).le hh.le
        have q1' := mul_le_mul_of_nonneg_left q1 hmp
        have q2' := mul_le_mul_of_nonneg_left q2 hmp
        have e1 : directSum (28 / 10 * soft) m (fun p => sqrt (d2 p)) (p :: l) =
            m p / (28 / 10 * soft) * splineKernel (sqrt (d2 p) / (28 / 10 * soft)) + directSum (28 / 10 * soft) m (fun p => sqrt (d2 p)) l := by
          unfold directSum
          rw [List.map_cons, List.sum_cons]
          ring
        have e2 : totalMass m (p :: l) * splineKernel (sqrt cl.sep2 / (28 / 10 * soft)) / (28 / 10 * soft) =
            m p / (28 / 10 * soft) * splineKernel (sqrt cl.sep2 / (28 / 10 * soft)) +
              totalMass m l * splineKernel (sqrt cl.sep2 / (28 / 10 * soft)) / (28 / 10 * soft) := by
          unfold totalMass
          rw [List.map_cons, List.sum_cons]
          ring
        rw [e1, e2]
        constructor <;> linarith
    obtain ⟨o1, o2⟩ := one cl.members (fun p hp => hp)
    have e1 : directSum (28 / 10 * soft) m (fun p => sqrt (d2 p)) ((cl :: cls).map Cluster.members).flatten =
        directSum (28 / 10 * soft) m (fun p => sqrt (d2 p)) cl.members + directSum (28 / 10 * soft) m (fun p => sqrt (d2 p)) (cls.map Cluster.members).flatten := by
      unfold directSum
      rw [List.map_cons, List.flatten_cons, List.map_append, List.sum_append]
    have e2 : -clusterPot sqrt soft m (cl :: cls) = -softPotential sqrt soft (totalMass m cl.members) cl.sep2 + -clusterPot sqrt soft m cls := by
      unfold clusterPot
      rw [List.map_cons, List.sum_cons]
      ring
    rw [e1, e2]
    have t1 : (0 : K) ≤ 1 - 2 / 10 ^ 12 := by norm_num
    have t2 : (0 : K) ≤ 1 + 2 / 10 ^ 12 := by norm_num
    have u1 := mul_le_mul_of_nonneg_left o1 t1
    have u2 := mul_le_mul_of_nonneg_left o2 t2
    constructor <;> linarith

end HBT.Spl
