import Verif.Lemmas.LinkedList
import Verif.Spec.LinkedList
import Verif.Props.MyMath
import Mathlib.Tactic.FieldSimp
/-!
# Geometry of the searches in the cell-linked list
-/
set_option linter.unusedSectionVars false
namespace HBT.LL
open HBT.Model HBT.Spec HBT.Props
section Field
variable {K : Type} [Field K] [LinearOrder K] [IsStrictOrderedRing K] [FloorRing K]

/-- What the searches need of the grid. -/
structure GridOK (g : CellGrid K) : Prop where
  ndiv_pos : 0 < g.ndiv
  step_pos : ∀ d, 0 < g.step d
  whole : g.periodic = true → ∀ d, g.step d * g.ndiv = g.box

theorem coord_mono (g : CellGrid K) (h : ∀ d, 0 < g.step d) (d : Fin 3) {x y : K} (hxy : x ≤ y) :
    coord g d x ≤ coord g d y := by
  unfold coord
  apply Int.floor_le_floor
  exact div_le_div_of_nonneg_right (by linarith) (h d).le

theorem coord_image (g : CellGrid K) (h : GridOK g) (hp : g.periodic = true) (d : Fin 3) (x : K) (k : Int) :
    coord g d (x + k * g.box) = coord g d x + k * g.ndiv := by
  unfold coord
  have hs := (h.step_pos d).ne'
  have e : (x + k * g.box - g.lo d) / g.step d = (x - g.lo d) / g.step d + ((k * (g.ndiv : Int) : Int) : K) := by
    rw [← h.whole hp d]
    push_cast
    field_simp
    ring
  rw [e, Int.floor_add_intCast]

theorem round_mono (n : Nat) (hn : 0 < n) {i j : Int} (h : i ≤ j) : roundGridId n i ≤ roundGridId n j := by
  unfold roundGridId
  split_ifs <;> omega

theorem round_id (n : Nat) {i : Int} (h0 : 0 ≤ i) (h1 : i < n) : roundGridId n i = i := by
  unfold roundGridId
  split_ifs <;> omega

theorem fix_np (g : CellGrid K) (hp : g.periodic = false) (i : Int) :
    fixGridId g i = roundGridId g.ndiv i := by
  simp [fixGridId, hp]

theorem fix_p (g : CellGrid K) (hn : 0 < g.ndiv) (hp : g.periodic = true) (i : Int) :
    fixGridId g i = i % g.ndiv := by
  simp [fixGridId, hp, shift_eq_emod _ hn]

/-- Whatever is within `rad` of the centre, directly or as an image, is in a visited cell. -/
theorem cover (g : CellGrid K) (h : GridOK g) (rad c x : Fin 3 → K) (k : Fin 3 → Int)
    (hk : g.periodic = false → ∀ d, k d = 0)
    (d : Fin 3) (hd : |x d + k d * g.box - c d| ≤ rad d) :
    ∃ i, Covers g rad c d i ∧ fixGridId g i = fixGridId g (coord g d (x d)) := by
  obtain ⟨h1, h2⟩ := abs_le.1 hd
  have m1 := coord_mono g h.step_pos d (show c d - rad d ≤ x d + k d * g.box by linarith)
  have m2 := coord_mono g h.step_pos d (show x d + k d * g.box ≤ c d + rad d by linarith)
  by_cases hp : g.periodic = true
  · rw [coord_image g h hp] at m1 m2
    refine ⟨coord g d (x d) + k d * g.ndiv, ?_, ?_⟩
    · unfold Covers bounds
      rw [if_pos hp]
      exact ⟨m1, m2⟩
    · rw [fix_p g h.ndiv_pos hp, fix_p g h.ndiv_pos hp]
      simp
  · have hp' : g.periodic = false := by simpa using hp
    have hk0 := hk hp' d
    rw [hk0] at m1 m2
    simp only [Int.cast_zero, zero_mul, add_zero] at m1 m2
    obtain ⟨r0, r1⟩ := fix_range g h.ndiv_pos (coord g d (x d))
    refine ⟨fixGridId g (coord g d (x d)), ?_, ?_⟩
    · unfold Covers bounds
      rw [if_neg hp]
      simp only [fix_np g hp']
      exact ⟨round_mono _ h.ndiv_pos m1, round_mono _ h.ndiv_pos m2⟩
    · rw [fix_np g hp', fix_np g hp'] at *
      exact round_id _ r0 r1

theorem visitOnce (g : CellGrid K) (h : GridOK g) (rad c : Fin 3 → K)
    (hr : g.periodic = true → ∀ d, 2 * rad d ≤ g.box - g.step d) (d : Fin 3) : VisitOnce g rad c d := by
  intro i i' hi hi' he
  by_cases hp : g.periodic = true
  · rw [fix_p g h.ndiv_pos hp, fix_p g h.ndiv_pos hp] at he
    unfold Covers bounds at hi hi'
    rw [if_pos hp] at hi hi'
    simp only at hi hi'
    have hs := h.step_pos d
    have hw := h.whole hp d
    have hspan : coord g d (c d + rad d) - coord g d (c d - rad d) < g.ndiv := by
      have a1 : ((coord g d (c d + rad d) : Int) : K) ≤ (c d + rad d - g.lo d) / g.step d := Int.floor_le _
      have a2 : (c d - rad d - g.lo d) / g.step d < ((coord g d (c d - rad d) : Int) : K) + 1 :=
        Int.lt_floor_add_one _
      have a3 : (c d + rad d - g.lo d) / g.step d - (c d - rad d - g.lo d) / g.step d ≤ g.ndiv - 1 := by
        rw [← sub_div, div_le_iff₀ hs]
        have := hr hp d
        nlinarith
      have a4 : ((coord g d (c d + rad d) - coord g d (c d - rad d) : Int) : K) < ((g.ndiv : Int) : K) := by
        push_cast
        linarith
      exact_mod_cast a4
    have hdvd : (g.ndiv : Int) ∣ i - i' := Int.dvd_of_emod_eq_zero (Int.emod_eq_emod_iff_emod_sub_eq_zero.1 he)
    obtain ⟨q, hq⟩ := hdvd
    have hn : (0 : Int) < g.ndiv := by have := h.ndiv_pos; omega
    have : q = 0 := by
      by_contra hq0
      rcases Int.lt_or_lt_of_ne hq0 with h1 | h1
      · have : (g.ndiv : Int) * q ≤ g.ndiv * (-1) := Int.mul_le_mul_of_nonneg_left (by omega) (by omega)
        omega
      · have : (g.ndiv : Int) * 1 ≤ g.ndiv * q := Int.mul_le_mul_of_nonneg_left (by omega) (by omega)
        omega
    subst this
    omega
  · have hp' : g.periodic = false := by simpa using hp
    unfold Covers bounds at hi hi'
    rw [if_neg hp] at hi hi'
    simp only at hi hi'
    have r1 := fix_range g h.ndiv_pos (coord g d (c d - rad d))
    have r2 := fix_range g h.ndiv_pos (coord g d (c d + rad d))
    rw [fix_np g hp', fix_np g hp', round_id _ (by omega) (by omega), round_id _ (by omega) (by omega)] at he
    exact he

/-- The offset used by the tests in one dimension: the nearest image. -/
theorem offset_image (periodic : Bool) (L : K) (hL : 0 < L) (x c : Fin 3 → K)
    (hx : periodic = true → InBox L x) (hc : periodic = true → InBox L c) (d : Fin 3) :
    (∃ k : Int, (periodic = false → k = 0) ∧ offsetTo periodic L x c d = x d + k * L - c d) ∧
      (periodic = true → ∀ k : Int, |offsetTo periodic L x c d| ≤ |x d + k * L - c d|) := by
  unfold offsetTo
  cases periodic with
  | false => simp
  | true =>
    have hx := hx rfl d
    have hc := hc rfl d
    obtain ⟨⟨k, hk⟩, hm⟩ := C04_minimum_image (x d) (c d) L hL hx.1 hx.2 hc.1 hc.2
    simp only [if_true]
    refine ⟨⟨k, by simp, by rw [hk]; ring⟩, fun _ k => ?_⟩
    rw [show x d + k * L - c d = x d - c d + k * L by ring]
    exact hm k

/-- Squared separation computed by the code. -/
def sep2 (periodic : Bool) (L : K) (x c : Fin 3 → K) : K :=
  offsetTo periodic L x c 0 * offsetTo periodic L x c 0 + offsetTo periodic L x c 1 * offsetTo periodic L x c 1 +
    offsetTo periodic L x c 2 * offsetTo periodic L x c 2

theorem sep2_eq (periodic : Bool) (L : K) (x c : Fin 3 → K) :
    periodicDistance2 periodic L x c = sep2 periodic L x c := by
  unfold periodicDistance2 sep2 offsetTo
  rfl

theorem sep2_separation (periodic : Bool) (L : K) (hL : 0 < L) (x c : Fin 3 → K)
    (hx : periodic = true → InBox L x) (hc : periodic = true → InBox L c) (s : K) :
    Separation periodic L x c s ↔ s = sep2 periodic L x c := by
  have key : Separation periodic L x c (sep2 periodic L x c) := by
    have h := offset_image periodic L hL x c hx hc
    unfold Separation
    cases periodic with
    | false =>
      simp only [Bool.false_eq_true, if_false, sep2, offsetTo, sqDist]
      ring
    | true =>
      simp only [if_true]
      choose k hk using fun d => (h d).1
      constructor
      · refine ⟨k, ?_⟩
        simp only [sep2, (hk _).2, sqDist, image]
        ring
      · intro k'
        have hd : ∀ d, offsetTo true L x c d * offsetTo true L x c d ≤ (x d + k' d * L - c d) ^ 2 := fun d => by
          rw [← pow_two]
          exact sq_le_sq.2 ((h d).2 rfl (k' d))
        simp only [sep2, sqDist, image]
        linarith [hd 0, hd 1, hd 2]
  constructor
  · intro hs
    unfold Separation at hs key
    cases periodic with
    | false =>
      simp only [Bool.false_eq_true, if_false] at hs key
      rw [hs, key]
    | true =>
      simp only [if_true] at hs key
      obtain ⟨⟨k, hk⟩, h1⟩ := hs
      obtain ⟨⟨k', hk'⟩, h2⟩ := key
      apply le_antisymm
      · rw [hk']; exact h1 k'
      · rw [hk]; exact h2 k
  · rintro rfl
    exact key

theorem closer_iff (periodic : Bool) (L r : K) (x c : Fin 3 → K) (s : K)
    (h : Separation periodic L x c s) : CloserThan periodic L r x c ↔ s < r ^ 2 := by
  unfold Separation at h
  unfold CloserThan
  cases periodic with
  | false =>
    simp only [Bool.false_eq_true, if_false] at h ⊢
    rw [h]
  | true =>
    simp only [if_true] at h ⊢
    obtain ⟨⟨k, hk⟩, hm⟩ := h
    constructor
    · rintro ⟨k', hk'⟩
      exact lt_of_le_of_lt (hm k') hk'
    · intro hs
      exact ⟨k, by rw [← hk]; exact hs⟩

theorem sphereTest_iff (periodic : Bool) (L r : K) (hr : 0 ≤ r) (c x : Fin 3 → K) (s : K) :
    sphereTest periodic L r c x = some s ↔ s = sep2 periodic L x c ∧ s < r ^ 2 := by
  unfold sphereTest sep2
  simp only
  generalize offsetTo periodic L x c 0 = a
  generalize offsetTo periodic L x c 1 = b
  generalize offsetTo periodic L x c 2 = e
  have aux : ∀ z : K, z ^ 2 < r ^ 2 → ¬ (z > r ∨ z < -r) := by
    intro z hz hcon
    have := abs_lt_of_sq_lt_sq hz hr
    obtain ⟨h1, h2⟩ := abs_lt.1 this
    rcases hcon with h | h <;> linarith
  constructor
  · intro h
    split_ifs at h with h1 h2 h3 h4
    simp only [Option.some.injEq] at h
    subst h
    exact ⟨rfl, by rw [pow_two]; exact h4⟩
  · rintro ⟨rfl, hs⟩
    have ha := sq_nonneg a
    have hb := sq_nonneg b
    have he := sq_nonneg e
    rw [if_neg (aux a (by nlinarith)), if_neg (aux b (by nlinarith)), if_neg (aux e (by nlinarith)),
      if_pos (by rw [pow_two] at hs; exact hs)]

theorem abs_offset_le (a b e r : K) (hr : 0 ≤ r) (h : a * a + b * b + e * e < r ^ 2) :
    |a| ≤ r ∧ |b| ≤ r ∧ |e| ≤ r := by
  have ha := sq_nonneg a
  have hb := sq_nonneg b
  have he := sq_nonneg e
  exact ⟨(abs_lt_of_sq_lt_sq (by nlinarith) hr).le, (abs_lt_of_sq_lt_sq (by nlinarith) hr).le,
    (abs_lt_of_sq_lt_sq (by nlinarith) hr).le⟩

/-- A particle whose offsets are within `rad` is in a visited cell. -/
theorem covered_of_offset (g : CellGrid K) (h : GridOK g) (hL : g.periodic = true → 0 < g.box)
    (rad c x : Fin 3 → K) (hx : g.periodic = true → InBox g.box x) (hc : g.periodic = true → InBox g.box c)
    (ho : ∀ d, |offsetTo g.periodic g.box x c d| ≤ rad d) :
    ∀ d, ∃ i, Covers g rad c d i ∧ fixGridId g i = fixGridId g (coord g d (x d)) := by
  by_cases hp : g.periodic = true
  · have hoff := offset_image g.periodic g.box (hL hp) x c hx hc
    choose k hk using fun d => (hoff d).1
    intro d
    refine cover g h rad c x k (fun hf d => (hk d).1 hf) d ?_
    rw [← (hk d).2]
    exact ho d
  · have hp' : g.periodic = false := by simpa using hp
    intro d
    refine cover g h rad c x (fun _ => 0) (fun _ _ => rfl) d ?_
    have := ho d
    simpa [offsetTo, hp'] using this

/-- Sphere search over a complete list. `L` matters only if the grid is periodic. -/
theorem sphere_found (ll : LinkedCells K) (hc : Complete ll) (hg : GridOK ll.grid) (L r : K)
    (hr : 0 ≤ r) (c : Fin 3 → K) (hbox : ll.grid.periodic = true → ll.grid.box = L ∧ 0 < L)
    (hx : ll.grid.periodic = true → ∀ x ∈ ll.pts, InBox L x) (hcb : ll.grid.periodic = true → InBox L c) :
    ∃ found, searchSphere ll L r c = .ok found ∧
      (∀ p s, (p, s) ∈ found ↔ ∃ x, ll.pts[p]? = some x ∧ s = sep2 ll.grid.periodic L x c ∧ s < r ^ 2) ∧
      ((ll.grid.periodic = true → 2 * r ≤ L - L / ll.grid.ndiv) → (found.map Prod.fst).Nodup) := by
  obtain ⟨found, h1, h2, h3⟩ := search_ok ll hc (fun _ => r) c (sphereTest ll.grid.periodic L r c)
  refine ⟨found, h1, ?_, ?_⟩
  · intro p s
    rw [h2]
    constructor
    · rintro ⟨x, hx, ht, _⟩
      exact ⟨x, hx, (sphereTest_iff _ L r hr c x s).1 ht⟩
    · rintro ⟨x, hpx, hs, hlt⟩
      refine ⟨x, hpx, (sphereTest_iff _ L r hr c x s).2 ⟨hs, hlt⟩, ?_⟩
      have hmem : x ∈ ll.pts := List.mem_of_getElem? hpx
      rw [hs, sep2] at hlt
      have hab := abs_offset_le _ _ _ r hr hlt
      have hoff : ∀ d, |offsetTo ll.grid.periodic ll.grid.box x c d| ≤ r := by
        intro d
        have e : offsetTo ll.grid.periodic ll.grid.box x c d = offsetTo ll.grid.periodic L x c d := by
          unfold offsetTo
          by_cases hp : ll.grid.periodic = true
          · rw [(hbox hp).1]
          · simp [hp]
        rw [e]
        match d with
        | 0 => exact hab.1
        | 1 => exact hab.2.1
        | 2 => exact hab.2.2
      exact covered_of_offset ll.grid hg (fun hp => by rw [(hbox hp).1]; exact (hbox hp).2) (fun _ => r) c x
        (fun hp => by rw [(hbox hp).1]; exact hx hp x hmem)
        (fun hp => by rw [(hbox hp).1]; exact hcb hp) hoff
  · intro hsmall
    apply h3
    apply visitOnce ll.grid hg
    intro hp d
    have h4 := hsmall hp
    have h5 := hg.whole hp d
    rw [(hbox hp).1] at h5 ⊢
    have hn : (0 : K) < ll.grid.ndiv := by exact_mod_cast hg.ndiv_pos
    have : L / ll.grid.ndiv = ll.grid.step d := by rw [← h5]; field_simp
    rw [← this]
    exact h4

/-- Shell search over a complete list. -/
theorem shell_found (ll : LinkedCells K) (hc : Complete ll) (hg : GridOK ll.grid) (L rmin rmax : K)
    (hr : 0 < rmin) (hr' : 0 ≤ rmax) (c : Fin 3 → K) (hbox : ll.grid.periodic = true → ll.grid.box = L ∧ 0 < L)
    (hx : ll.grid.periodic = true → ∀ x ∈ ll.pts, InBox L x) (hcb : ll.grid.periodic = true → InBox L c) :
    ∃ found, searchShell ll L rmin rmax c = .ok found ∧
      (∀ p s, (p, s) ∈ found ↔ ∃ x, ll.pts[p]? = some x ∧ s = sep2 ll.grid.periodic L x c ∧
        s < rmax ^ 2 ∧ rmin ^ 2 < s) ∧
      ((ll.grid.periodic = true → 2 * rmax ≤ L - L / ll.grid.ndiv) → (found.map Prod.fst).Nodup) := by
  obtain ⟨found, h1, h2, h3⟩ := search_ok ll hc (fun _ => rmax) c (shellTest ll.grid rmin rmax c)
  have hsep : ∀ x, cellDistance2 ll.grid x c = sep2 ll.grid.periodic L x c := by
    intro x
    unfold cellDistance2
    rw [sep2_eq]
    by_cases hp : ll.grid.periodic = true
    · rw [(hbox hp).1]
    · simp [sep2, offsetTo, hp]
  refine ⟨found, ?_, ?_, ?_⟩
  · rw [searchShell, if_neg (not_le.2 hr)]
    exact h1
  · intro p s
    rw [h2]
    have ht : ∀ x, shellTest ll.grid rmin rmax c x = some s ↔ s = sep2 ll.grid.periodic L x c ∧
        s < rmax ^ 2 ∧ rmin ^ 2 < s := by
      intro x
      unfold shellTest
      simp only [hsep]
      rw [pow_two, pow_two]
      constructor
      · intro h
        split_ifs at h with h4
        simp only [Option.some.injEq] at h
        subst h
        exact ⟨rfl, h4.1, h4.2⟩
      · rintro ⟨rfl, h4, h5⟩
        rw [if_pos ⟨h4, h5⟩]
    constructor
    · rintro ⟨x, hx, h4, _⟩
      exact ⟨x, hx, (ht x).1 h4⟩
    · rintro ⟨x, hpx, h4⟩
      refine ⟨x, hpx, (ht x).2 h4, ?_⟩
      obtain ⟨hs, hlt, _⟩ := h4
      have hmem : x ∈ ll.pts := List.mem_of_getElem? hpx
      rw [hs, sep2] at hlt
      have hab := abs_offset_le _ _ _ rmax hr' hlt
      have hoff : ∀ d, |offsetTo ll.grid.periodic ll.grid.box x c d| ≤ rmax := by
        intro d
        have e : offsetTo ll.grid.periodic ll.grid.box x c d = offsetTo ll.grid.periodic L x c d := by
          unfold offsetTo
          by_cases hp : ll.grid.periodic = true
          · rw [(hbox hp).1]
          · simp [hp]
        rw [e]
        match d with
        | 0 => exact hab.1
        | 1 => exact hab.2.1
        | 2 => exact hab.2.2
      exact covered_of_offset ll.grid hg (fun hp => by rw [(hbox hp).1]; exact (hbox hp).2) (fun _ => rmax) c x
        (fun hp => by rw [(hbox hp).1]; exact hx hp x hmem)
        (fun hp => by rw [(hbox hp).1]; exact hcb hp) hoff
  · intro hsmall
    apply h3
    apply visitOnce ll.grid hg
    intro hp d
    have h4 := hsmall hp
    have h5 := hg.whole hp d
    rw [(hbox hp).1] at h5 ⊢
    have hn : (0 : K) < ll.grid.ndiv := by exact_mod_cast hg.ndiv_pos
    have : L / ll.grid.ndiv = ll.grid.step d := by rw [← h5]; field_simp
    rw [← this]
    exact h4

theorem cylinderTest_iff (periodic : Bool) (L rz rp : K) (hp : 0 ≤ rp) (c x : Fin 3 → K) (s : K) :
    cylinderTest periodic L rz rp c x = some s ↔
      s = offsetTo periodic L x c 0 ^ 2 + offsetTo periodic L x c 1 ^ 2 ∧ s < rp ^ 2 ∧
        |offsetTo periodic L x c 2| ≤ rz := by
  unfold cylinderTest
  simp only
  generalize offsetTo periodic L x c 0 = a
  generalize offsetTo periodic L x c 1 = b
  generalize offsetTo periodic L x c 2 = e
  have aux : ∀ z : K, z ^ 2 < rp ^ 2 → ¬ (z > rp ∨ z < -rp) := by
    intro z hz hcon
    have := abs_lt_of_sq_lt_sq hz hp
    obtain ⟨h1, h2⟩ := abs_lt.1 this
    rcases hcon with h | h <;> linarith
  constructor
  · intro h
    split_ifs at h with h1 h2 h3 h4
    simp only [Option.some.injEq] at h
    subst h
    refine ⟨by ring, by rw [pow_two]; exact h4, abs_le.2 ⟨?_, ?_⟩⟩
    · by_contra hc; exact h3 (Or.inr (not_le.1 hc))
    · by_contra hc; exact h3 (Or.inl (not_le.1 hc))
  · rintro ⟨rfl, hs, hz⟩
    have ha := sq_nonneg a
    have hb := sq_nonneg b
    obtain ⟨z1, z2⟩ := abs_le.1 hz
    have hz' : ¬ (e > rz ∨ e < -rz) := by
      rintro (h | h) <;> linarith
    rw [if_neg (aux a (by linarith)), if_neg (aux b (by linarith)), if_neg hz',
      if_pos (by rw [← pow_two, ← pow_two, ← pow_two]; exact hs), ← pow_two, ← pow_two]

/-- Cylinder search over a complete list. -/
theorem cylinder_found (ll : LinkedCells K) (hc : Complete ll) (hg : GridOK ll.grid) (L rz rp : K)
    (hrp : 0 ≤ rp) (c : Fin 3 → K) (hbox : ll.grid.periodic = true → ll.grid.box = L ∧ 0 < L)
    (hx : ll.grid.periodic = true → ∀ x ∈ ll.pts, InBox L x) (hcb : ll.grid.periodic = true → InBox L c) :
    ∃ found, searchCylinder ll L rz rp c = .ok found ∧
      (∀ p s, (p, s) ∈ found ↔ ∃ x, ll.pts[p]? = some x ∧
        s = offsetTo ll.grid.periodic L x c 0 ^ 2 + offsetTo ll.grid.periodic L x c 1 ^ 2 ∧ s < rp ^ 2 ∧
        |offsetTo ll.grid.periodic L x c 2| ≤ rz) ∧
      ((ll.grid.periodic = true → 2 * rp ≤ L - L / ll.grid.ndiv ∧ 2 * rz ≤ L - L / ll.grid.ndiv) →
        (found.map Prod.fst).Nodup) := by
  obtain ⟨found, h1, h2, h3⟩ := search_ok ll hc (cylinderRad rz rp) c (cylinderTest ll.grid.periodic L rz rp c)
  refine ⟨found, h1, ?_, ?_⟩
  · intro p s
    rw [h2]
    constructor
    · rintro ⟨x, hx, ht, _⟩
      exact ⟨x, hx, (cylinderTest_iff _ L rz rp hrp c x s).1 ht⟩
    · rintro ⟨x, hpx, hall⟩
      refine ⟨x, hpx, (cylinderTest_iff _ L rz rp hrp c x s).2 hall, ?_⟩
      obtain ⟨hs, hlt, hz⟩ := hall
      have hmem : x ∈ ll.pts := List.mem_of_getElem? hpx
      rw [hs] at hlt
      have ha := sq_nonneg (offsetTo ll.grid.periodic L x c 0)
      have hb := sq_nonneg (offsetTo ll.grid.periodic L x c 1)
      have hoff : ∀ d, |offsetTo ll.grid.periodic ll.grid.box x c d| ≤ cylinderRad rz rp d := by
        intro d
        have e : offsetTo ll.grid.periodic ll.grid.box x c d = offsetTo ll.grid.periodic L x c d := by
          unfold offsetTo
          by_cases hp : ll.grid.periodic = true
          · rw [(hbox hp).1]
          · simp [hp]
        rw [e]
        match d with
        | 0 => exact (abs_lt_of_sq_lt_sq (by linarith) hrp).le
        | 1 => exact (abs_lt_of_sq_lt_sq (by linarith) hrp).le
        | 2 => exact hz
      exact covered_of_offset ll.grid hg (fun hp => by rw [(hbox hp).1]; exact (hbox hp).2) _ c x
        (fun hp => by rw [(hbox hp).1]; exact hx hp x hmem)
        (fun hp => by rw [(hbox hp).1]; exact hcb hp) hoff
  · intro hsmall
    apply h3
    apply visitOnce ll.grid hg
    intro hp d
    have h4 := hsmall hp
    have h5 := hg.whole hp d
    rw [(hbox hp).1] at h5 ⊢
    have hn : (0 : K) < ll.grid.ndiv := by exact_mod_cast hg.ndiv_pos
    have : L / ll.grid.ndiv = ll.grid.step d := by rw [← h5]; field_simp
    rw [← this]
    unfold cylinderRad
    split
    · exact h4.2
    · exact h4.1

/-- The grid made from a box size. -/
def boxGrid (ndiv : Nat) (L : K) (periodic : Bool) : CellGrid K :=
  { ndiv := ndiv, periodic := periodic, box := L, lo := fun _ => 0, step := fun _ => L / ndiv }

theorem initGrid_box (ndiv : Nat) (pts : List (Fin 3 → K)) (L : K) (periodic : Bool) (hn : 0 < ndiv)
    (hsize : ndiv ^ 3 < 2 ^ 31) (hL : 0 < L) :
    initGrid ndiv pts L periodic = .ok (boxGrid ndiv L periodic) := by
  unfold initGrid
  have e : ndiv ^ 3 = ndiv * ndiv * ndiv := by ring
  rw [e] at hsize
  rw [if_neg (by omega), if_pos hL.ne']
  rfl

theorem boxGrid_ok (ndiv : Nat) (L : K) (periodic : Bool) (hn : 0 < ndiv) (hL : 0 < L) :
    GridOK (boxGrid ndiv L periodic) := by
  have hn' : (0 : K) < ndiv := by exact_mod_cast hn
  refine ⟨hn, fun _ => div_pos hL hn', fun _ _ => ?_⟩
  simp only [boxGrid]
  field_simp

theorem build_box (ndiv : Nat) (pts : List (Fin 3 → K)) (L : K) (periodic : Bool) (hn : 0 < ndiv)
    (hsize : ndiv ^ 3 < 2 ^ 31) (hL : 0 < L) :
    ∃ ll, buildCells ndiv pts L periodic = .ok ll ∧ Complete ll ∧ ll.grid = boxGrid ndiv L periodic ∧
      ll.pts = pts :=
  build_ok ndiv pts L periodic _ (initGrid_box ndiv pts L periodic hn hsize hL)
    (fun d => ((boxGrid_ok ndiv L periodic hn hL).step_pos d).ne')

end Field
end HBT.LL
