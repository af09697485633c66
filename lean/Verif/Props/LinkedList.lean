import Verif.Lemmas.LinkedSearch
import Mathlib.Data.Rat.Floor
import Mathlib.Algebra.Order.Ring.Rat
import Mathlib.Tactic.FinCases
import Mathlib.Data.Fintype.Basic
/-!
# C37, C38: the cell-linked list and its searches
-/
set_option linter.unusedSectionVars false
namespace HBT.Props
open HBT.Model HBT.Spec HBT.LL
section Field
variable {K : Type} [Field K] [LinearOrder K] [IsStrictOrderedRing K] [FloorRing K]

theorem coord_inCell (ndiv : Nat) (hn : 0 < ndiv) (L : K) (hL : 0 < L) (periodic : Bool) (d : Fin 3)
    (x : K) (h0 : 0 ≤ x) (h1 : x < L) (c : Nat) (hc : c < ndiv) :
    fixGridId (boxGrid ndiv L periodic) (coord (boxGrid ndiv L periodic) d x) = c ↔
      (c : K) * (L / ndiv) ≤ x ∧ x < ((c : K) + 1) * (L / ndiv) := by
  have hn' : (0 : K) < ndiv := by exact_mod_cast hn
  have hs : 0 < L / (ndiv : K) := div_pos hL hn'
  have e : coord (boxGrid ndiv L periodic) d x = ⌊x / (L / ndiv)⌋ := by
    simp [coord, boxGrid]
  rw [e]
  have hlo : 0 ≤ ⌊x / (L / (ndiv : K))⌋ := Int.floor_nonneg.2 (div_nonneg h0 hs.le)
  have hhi : ⌊x / (L / (ndiv : K))⌋ < ndiv := by
    rw [Int.floor_lt, div_lt_iff₀ hs]
    push_cast
    rw [mul_div_cancel₀ _ hn'.ne']
    exact h1
  have hfix : fixGridId (boxGrid ndiv L periodic) ⌊x / (L / (ndiv : K))⌋ = ⌊x / (L / (ndiv : K))⌋ := by
    cases periodic with
    | false => rw [fix_np _ rfl]; exact round_id _ hlo hhi
    | true => rw [fix_p _ hn rfl]; exact Int.emod_eq_of_lt hlo hhi
  rw [hfix, Int.floor_eq_iff, le_div_iff₀ hs, div_lt_iff₀ hs]
  push_cast
  rfl

/-- C37. For every set of particles in the box and every grid, building succeeds and, for every
cell `c`, following the chain from `HOC[c₀+c₁·N+c₂·N²]` ends and visits exactly the particles whose
position is in that cell, each once. -/
theorem C37_chains (ndiv : Nat) (pts : List (Fin 3 → K)) (L : K) (periodic : Bool) (hn : 0 < ndiv)
    (hsize : ndiv ^ 3 < 2 ^ 31) (hL : 0 < L) (hin : ∀ x ∈ pts, InBox L x) :
    ∃ ll, buildCells ndiv pts L periodic = .ok ll ∧
      ∀ c : Fin 3 → Nat, (∀ d, c d < ndiv) →
        ∃ l, chainOf ll ((c 0 + c 1 * ndiv + c 2 * (ndiv * ndiv) : Nat) : Int) = .ok l ∧ l.Nodup ∧
          ∀ p, p ∈ l ↔ ∃ x, pts[p]? = some x ∧ InCell L ndiv c x := by
  obtain ⟨ll, e, hcomp, hg, hp⟩ := build_box ndiv pts L periodic hn hsize hL
  refine ⟨ll, e, fun c hc => ?_⟩
  have hcr : ∀ d, 0 ≤ (c d : Int) ∧ (c d : Int) < (boxGrid ndiv L periodic).ndiv := fun d => by
    have := hc d
    simp only [boxGrid]; omega
  have hr := sub2Ind_range (boxGrid ndiv L periodic) (c 0) (c 1) (c 2) (hcr 0) (hcr 1) (hcr 2)
  have hidx : sub2Ind (boxGrid ndiv L periodic) (c 0) (c 1) (c 2) =
      ((c 0 + c 1 * ndiv + c 2 * (ndiv * ndiv) : Nat) : Int) := by
    simp [sub2Ind, boxGrid]
  rw [hidx] at hr
  obtain ⟨l, h1, h2, h3⟩ := chainOf_ok ll hcomp _ hr.1 (by rw [hg]; exact hr.2)
  refine ⟨l, h1, h2, fun p => ?_⟩
  rw [h3 p, hp, hg]
  have key : ∀ x ∈ pts, cellOf (boxGrid ndiv L periodic) x =
      ((c 0 + c 1 * ndiv + c 2 * (ndiv * ndiv) : Nat) : Int) ↔ InCell L ndiv c x := by
    intro x hx
    have hb := hin x hx
    have hd := fun d => coord_inCell ndiv hn L hL periodic d (x d) (hb d).1 (hb d).2 (c d) (hc d)
    constructor
    · intro hcell
      rw [← hidx] at hcell
      obtain ⟨e0, e1, e2⟩ := sub2Ind_inj _ _ _ _ _ _ _ (fix_range _ hn _) (fix_range _ hn _) (hcr 0) (hcr 1) hcell
      intro d
      match d with
      | 0 => exact (hd 0).1 e0
      | 1 => exact (hd 1).1 e1
      | 2 => exact (hd 2).1 e2
    · intro hcell
      rw [← hidx, cellOf, (hd 0).2 (hcell 0), (hd 1).2 (hcell 1), (hd 2).2 (hcell 2)]
  constructor
  · rintro ⟨x, hx, hcell⟩
    exact ⟨x, hx, (key x (List.mem_of_getElem? hx)).1 hcell⟩
  · rintro ⟨x, hx, hcell⟩
    exact ⟨x, hx, (key x (List.mem_of_getElem? hx)).2 hcell⟩

/-- C37, wherever the particles are (also outside the box, where cells are clamped or wrapped):
every particle is in the chain of exactly one cell, and every chain ends. -/
theorem C37_once (ndiv : Nat) (pts : List (Fin 3 → K)) (L : K) (periodic : Bool) (hn : 0 < ndiv)
    (hsize : ndiv ^ 3 < 2 ^ 31) (hL : 0 < L) :
    ∃ (ll : LinkedCells K) (chains : Nat → List Nat), buildCells ndiv pts L periodic = .ok ll ∧ ll.hoc.length = ndiv ^ 3 ∧
      (∀ i, i < ndiv ^ 3 → chainOf ll (i : Nat) = .ok (chains i) ∧ (chains i).Nodup ∧
        ∀ p ∈ chains i, p < pts.length) ∧
      ∀ p, p < pts.length → ∃! i, i < ndiv ^ 3 ∧ p ∈ chains i := by
  obtain ⟨ll, e, hcomp, hg, hp⟩ := build_box ndiv pts L periodic hn hsize hL
  have e3 : ndiv ^ 3 = ndiv * ndiv * ndiv := by ring
  have hN : ll.grid.ndiv = ndiv := by rw [hg]; rfl
  have hch : ∀ i : Nat, ∃ l, i < ndiv ^ 3 → chainOf ll (i : Nat) = .ok l ∧ l.Nodup ∧
      ∀ p, p ∈ l ↔ ∃ x, ll.pts[p]? = some x ∧ cellOf ll.grid x = (i : Nat) := by
    intro i
    by_cases hi : i < ndiv ^ 3
    · obtain ⟨l, h⟩ := chainOf_ok ll hcomp i (by omega) (by rw [hN, ← e3]; omega)
      exact ⟨l, fun _ => h⟩
    · exact ⟨[], fun h => absurd h hi⟩
  choose chains hchains using hch
  refine ⟨ll, chains, e, by rw [hcomp.hoc_len, hN, e3], ?_, ?_⟩
  · intro i hi
    obtain ⟨h1, h2, h3⟩ := hchains i hi
    refine ⟨h1, h2, fun p hpm => ?_⟩
    obtain ⟨x, hx, _⟩ := (h3 p).1 hpm
    rw [hp] at hx
    exact (List.getElem?_eq_some_iff.1 hx).1
  · intro p hpl
    have hx : ll.pts[p]? = some pts[p] := by rw [hp]; exact List.getElem?_eq_getElem hpl
    have hr := cellOf_range ll.grid (by omega) pts[p]
    obtain ⟨i, hi⟩ := Int.eq_ofNat_of_zero_le hr.1
    have hilt : i < ndiv ^ 3 := by rw [e3, ← hN]; omega
    refine ⟨i, ⟨hilt, ((hchains i hilt).2.2 p).2 ⟨_, hx, hi⟩⟩, ?_⟩
    rintro j ⟨hj, hm⟩
    obtain ⟨y, hy, hc⟩ := ((hchains j hj).2.2 p).1 hm
    rw [hx] at hy
    cases hy
    rw [hc] at hi
    omega

/-! ## C38 -/

/-- C38, sphere. For every particle set, grid, centre and radius, periodic (positions and centre in
the box) or not (any positions): the search reports particle `p` exactly if it, or an image of it, is
closer to the centre than the radius, together with its squared separation. No particle is reported
twice if the search is not periodic, or if the diameter leaves one cell of the box free. -/
theorem C38_sphere (ndiv : Nat) (pts : List (Fin 3 → K)) (L : K) (periodic : Bool) (hn : 0 < ndiv)
    (hsize : ndiv ^ 3 < 2 ^ 31) (hL : 0 < L) (r : K) (hr : 0 ≤ r) (c : Fin 3 → K)
    (hin : periodic = true → InBox L c ∧ ∀ x ∈ pts, InBox L x) :
    ∃ ll found, buildCells ndiv pts L periodic = .ok ll ∧ searchSphere ll L r c = .ok found ∧
      (∀ p s, (p, s) ∈ found ↔
        ∃ x, pts[p]? = some x ∧ Separation periodic L x c s ∧ CloserThan periodic L r x c) ∧
      ((periodic = true → 2 * r ≤ L - L / ndiv) → (found.map Prod.fst).Nodup) := by
  obtain ⟨ll, e, hcomp, hg, hp⟩ := build_box ndiv pts L periodic hn hsize hL
  obtain ⟨found, h1, h2, h3⟩ := sphere_found ll hcomp (by rw [hg]; exact boxGrid_ok ndiv L periodic hn hL) L r hr c
    (fun _ => by rw [hg]; exact ⟨rfl, hL⟩) (by rw [hg, hp]; exact fun h => (hin h).2)
    (by rw [hg]; exact fun h => (hin h).1)
  rw [hg, hp] at h2
  rw [hg] at h3
  refine ⟨ll, found, e, h1, ?_, h3⟩
  intro p s
  rw [h2]
  constructor
  · rintro ⟨x, hx, hs, hlt⟩
    have hsep : Separation periodic L x c s := (sep2_separation periodic L hL x c
      (fun h => (hin h).2 x (List.mem_of_getElem? hx)) (fun h => (hin h).1) s).2 hs
    exact ⟨x, hx, hsep, (closer_iff periodic L r x c s hsep).2 hlt⟩
  · rintro ⟨x, hx, hsep, hcl⟩
    exact ⟨x, hx, (sep2_separation periodic L hL x c
      (fun h => (hin h).2 x (List.mem_of_getElem? hx)) (fun h => (hin h).1) s).1 hsep,
      (closer_iff periodic L r x c s hsep).1 hcl⟩

/-- C38, shell. As `C38_sphere`, for the particles whose separation lies strictly between the two radii
(the comment in the code says inclusive). With a non-positive inner radius it is a sphere search. -/
theorem C38_shell (ndiv : Nat) (pts : List (Fin 3 → K)) (L : K) (periodic : Bool) (hn : 0 < ndiv)
    (hsize : ndiv ^ 3 < 2 ^ 31) (hL : 0 < L) (rmin rmax : K) (hr : 0 ≤ rmax) (c : Fin 3 → K)
    (hin : periodic = true → InBox L c ∧ ∀ x ∈ pts, InBox L x) :
    ∃ ll found, buildCells ndiv pts L periodic = .ok ll ∧ searchShell ll L rmin rmax c = .ok found ∧
      (∀ p s, (p, s) ∈ found ↔ ∃ x, pts[p]? = some x ∧ Separation periodic L x c s ∧
        CloserThan periodic L rmax x c ∧ (0 < rmin → rmin ^ 2 < s)) ∧
      ((periodic = true → 2 * rmax ≤ L - L / ndiv) → (found.map Prod.fst).Nodup) := by
  rcases le_or_gt rmin 0 with h0 | h0
  · obtain ⟨ll, found, e, h1, h2, h3⟩ := C38_sphere ndiv pts L periodic hn hsize hL rmax hr c hin
    refine ⟨ll, found, e, by rw [searchShell, if_pos h0, h1], fun p s => ?_, h3⟩
    rw [h2]
    constructor
    · rintro ⟨x, hx, a, b⟩
      exact ⟨x, hx, a, b, fun h => absurd h0 (not_le.2 h)⟩
    · rintro ⟨x, hx, a, b, _⟩
      exact ⟨x, hx, a, b⟩
  · obtain ⟨ll, e, hcomp, hg, hp⟩ := build_box ndiv pts L periodic hn hsize hL
    obtain ⟨found, h1, h2, h3⟩ := shell_found ll hcomp (by rw [hg]; exact boxGrid_ok ndiv L periodic hn hL) L
      rmin rmax h0 hr c (fun _ => by rw [hg]; exact ⟨rfl, hL⟩) (by rw [hg, hp]; exact fun h => (hin h).2)
      (by rw [hg]; exact fun h => (hin h).1)
    rw [hg, hp] at h2
    rw [hg] at h3
    refine ⟨ll, found, e, h1, ?_, h3⟩
    intro p s
    rw [h2]
    constructor
    · rintro ⟨x, hx, hs, hlt, hgt⟩
      have hsep : Separation periodic L x c s := (sep2_separation periodic L hL x c
        (fun h => (hin h).2 x (List.mem_of_getElem? hx)) (fun h => (hin h).1) s).2 hs
      exact ⟨x, hx, hsep, (closer_iff periodic L rmax x c s hsep).2 hlt, fun _ => hgt⟩
    · rintro ⟨x, hx, hsep, hcl, hgt⟩
      exact ⟨x, hx, (sep2_separation periodic L hL x c
        (fun h => (hin h).2 x (List.mem_of_getElem? hx)) (fun h => (hin h).1) s).1 hsep,
        (closer_iff periodic L rmax x c s hsep).1 hcl, hgt h0⟩

theorem inCylinder_iff (periodic : Bool) (L rz rp : K) (hL : 0 < L) (x c : Fin 3 → K)
    (hx : periodic = true → InBox L x) (hc : periodic = true → InBox L c) :
    InCylinder periodic L rz rp x c ↔
      offsetTo periodic L x c 0 ^ 2 + offsetTo periodic L x c 1 ^ 2 < rp ^ 2 ∧
        |offsetTo periodic L x c 2| ≤ rz := by
  have h := offset_image periodic L hL x c hx hc
  unfold InCylinder
  cases periodic with
  | false => simp [offsetTo]
  | true =>
    simp only [if_true]
    constructor
    · rintro ⟨k, h1, h2⟩
      have hd : ∀ d, offsetTo true L x c d ^ 2 ≤ (image L k x d - c d) ^ 2 := fun d =>
        sq_le_sq.2 ((h d).2 rfl (k d))
      exact ⟨by linarith [hd 0, hd 1], le_trans ((h 2).2 rfl (k 2)) h2⟩
    · rintro ⟨h1, h2⟩
      choose k hk using fun d => (h d).1
      refine ⟨k, ?_, ?_⟩
      · simp only [image, ← (hk _).2]; exact h1
      · simp only [image, ← (hk _).2]; exact h2

/-- C38, cylinder. The search reports exactly the particles that, directly or as an image, are within
`rz` of the centre along the third axis and closer than `rp` in projection. -/
theorem C38_cylinder (ndiv : Nat) (pts : List (Fin 3 → K)) (L : K) (periodic : Bool) (hn : 0 < ndiv)
    (hsize : ndiv ^ 3 < 2 ^ 31) (hL : 0 < L) (rz rp : K) (hr : 0 ≤ rp) (c : Fin 3 → K)
    (hin : periodic = true → InBox L c ∧ ∀ x ∈ pts, InBox L x) :
    ∃ ll found, buildCells ndiv pts L periodic = .ok ll ∧ searchCylinder ll L rz rp c = .ok found ∧
      (∀ p, (∃ s, (p, s) ∈ found) ↔ ∃ x, pts[p]? = some x ∧ InCylinder periodic L rz rp x c) ∧
      (∀ p s, (p, s) ∈ found → ∃ x, pts[p]? = some x ∧
        if periodic then (∃ k, s = (image L k x 0 - c 0) ^ 2 + (image L k x 1 - c 1) ^ 2) ∧
          ∀ k, s ≤ (image L k x 0 - c 0) ^ 2 + (image L k x 1 - c 1) ^ 2
        else s = (x 0 - c 0) ^ 2 + (x 1 - c 1) ^ 2) ∧
      ((periodic = true → 2 * rp ≤ L - L / ndiv ∧ 2 * rz ≤ L - L / ndiv) →
        (found.map Prod.fst).Nodup) := by
  obtain ⟨ll, e, hcomp, hg, hp⟩ := build_box ndiv pts L periodic hn hsize hL
  obtain ⟨found, h1, h2, h3⟩ := cylinder_found ll hcomp (by rw [hg]; exact boxGrid_ok ndiv L periodic hn hL) L
    rz rp hr c (fun _ => by rw [hg]; exact ⟨rfl, hL⟩) (by rw [hg, hp]; exact fun h => (hin h).2)
    (by rw [hg]; exact fun h => (hin h).1)
  rw [hg, hp] at h2
  rw [hg] at h3
  have hiff := fun x hx => inCylinder_iff periodic L rz rp hL x c
    (fun h => (hin h).2 x hx) (fun h => (hin h).1)
  refine ⟨ll, found, e, h1, ?_, ?_, h3⟩
  · intro p
    constructor
    · rintro ⟨s, hs⟩
      obtain ⟨x, hx, rfl, a, b⟩ := (h2 p s).1 hs
      exact ⟨x, hx, (hiff x (List.mem_of_getElem? hx)).2 ⟨a, b⟩⟩
    · rintro ⟨x, hx, hc⟩
      exact ⟨_, (h2 p _).2 ⟨x, hx, rfl, (hiff x (List.mem_of_getElem? hx)).1 hc⟩⟩
  · intro p s hs
    obtain ⟨x, hx, rfl, _, _⟩ := (h2 p s).1 hs
    refine ⟨x, hx, ?_⟩
    have h := offset_image periodic L hL x c (fun h => (hin h).2 x (List.mem_of_getElem? hx))
      (fun h => (hin h).1)
    simp only [boxGrid]
    cases periodic with
    | false => simp [offsetTo]
    | true =>
      simp only [if_true]
      constructor
      · choose k hk using fun d => (h d).1
        exact ⟨k, by simp only [image, ← (hk _).2]⟩
      · intro k
        have hd : ∀ d, offsetTo true L x c d ^ 2 ≤ (image L k x d - c d) ^ 2 := fun d =>
          sq_le_sq.2 ((h d).2 rfl (k d))
        linarith [hd 0, hd 1]

/-! ### Without a box size -/

theorem widenRange_mono (xs : List K) : ∀ r : K × K,
    (widenRange xs r).1 ≤ r.1 ∧ r.2 ≤ (widenRange xs r).2 := by
  induction xs with
  | nil => intro r; exact ⟨le_refl _, le_refl _⟩
  | cons x xs ih =>
    intro r
    have h := ih (if x < r.1 then (x, r.2) else if x > r.2 then (r.1, x) else r)
    change (widenRange xs (if x < r.1 then (x, r.2) else if x > r.2 then (r.1, x) else r)).1 ≤ r.1 ∧
      r.2 ≤ (widenRange xs (if x < r.1 then (x, r.2) else if x > r.2 then (r.1, x) else r)).2
    split_ifs at h ⊢ with h1 h2
    · exact ⟨h.1.trans h1.le, h.2⟩
    · exact ⟨h.1, h2.le.trans h.2⟩
    · exact h

/-- C38 without a box size (the grid is fitted to the particles): if the first coordinate of the first
particle is smaller than its second one, the sphere search reports exactly the particles closer
than the radius, each once. See `C38_auto_range_finding` for why the condition is needed. -/
theorem C38_auto_range (ndiv : Nat) (p0 : Fin 3 → K) (rest : List (Fin 3 → K)) (periodic : Bool)
    (hn : 0 < ndiv) (hsize : ndiv ^ 3 < 2 ^ 31) (h01 : p0 0 < p0 1) (L r : K) (hr : 0 ≤ r) (c : Fin 3 → K) :
    ∃ ll found, buildCells ndiv (p0 :: rest) 0 periodic = .ok ll ∧ searchSphere ll L r c = .ok found ∧
      (∀ p s, (p, s) ∈ found ↔ ∃ x, (p0 :: rest)[p]? = some x ∧ s = sqDist x c ∧ s < r ^ 2) ∧
      (found.map Prod.fst).Nodup := by
  have e3 : ndiv ^ 3 = ndiv * ndiv * ndiv := by ring
  rw [e3] at hsize
  have hn' : (0 : K) < ndiv := by exact_mod_cast hn
  obtain ⟨g, hg, hper, hnd, hstep⟩ : ∃ g : CellGrid K, initGrid ndiv (p0 :: rest) 0 periodic = .ok g ∧
      g.periodic = false ∧ g.ndiv = ndiv ∧ ∀ d, 0 < g.step d := by
    refine ⟨{ ndiv := ndiv, periodic := false, box := 0,
              lo := fun j => (widenRange (rest.map (· j)) (p0 0, p0 1)).1,
              step := fun j => ((widenRange (rest.map (· j)) (p0 0, p0 1)).2 -
                (widenRange (rest.map (· j)) (p0 0, p0 1)).1) / ndiv }, ?_, rfl, rfl, ?_⟩
    · unfold initGrid
      rw [if_neg (by omega), if_neg (by simp)]
      simp only [Outcome.get, List.getElem?_cons_zero, Outcome.bind_ok]
      rfl
    · intro d
      apply div_pos _ hn'
      have := widenRange_mono (rest.map (· d)) (p0 0, p0 1)
      simp only at this
      linarith [this.1, this.2]
  obtain ⟨ll, e, hcomp, hgl, hp⟩ := build_ok ndiv (p0 :: rest) 0 periodic g hg (fun d => (hstep d).ne')
  have hlp : ll.grid.periodic = false := by rw [hgl]; exact hper
  have hok : GridOK ll.grid := by
    refine ⟨by rw [hgl, hnd]; exact hn, by rw [hgl]; exact hstep, fun h => ?_⟩
    rw [hlp] at h
    exact absurd h (by simp)
  have habs : ∀ {P : Prop}, ll.grid.periodic = true → P := fun h => absurd (hlp.symm.trans h) (by simp)
  obtain ⟨found, h1, h2, h3⟩ := sphere_found ll hcomp hok L r hr c habs habs habs
  refine ⟨ll, found, e, h1, fun p s => ?_, h3 habs⟩
  rw [h2, hp, hlp]
  have hs : ∀ x, sep2 false L x c = sqDist x c := by
    intro x
    simp only [sep2, offsetTo, sqDist, Bool.false_eq_true, if_false]
    ring
  simp only [hs]

end Field

/-! ### Examples and findings -/

/-- Six particles in a box of side 10. -/
def boxPts : List (Fin 3 → ℚ) :=
  [![1/2, 1/2, 1/2], ![9, 1, 1], ![5, 5, 5], ![9, 9, 9], ![3/2, 1/2, 1/2], ![7, 0, 3]]

example : ∀ x ∈ boxPts, InBox 10 x := by
  intro x hx
  simp only [boxPts, List.mem_cons, List.not_mem_nil, or_false] at hx
  rcases hx with rfl | rfl | rfl | rfl | rfl | rfl <;> intro d <;> fin_cases d <;> norm_num

/-- Non-vacuity of C37: a chain with two particles. -/
example : (do let ll ← buildCells 3 boxPts 10 true; chainOf ll 0) = .ok [4, 0] := by decide +kernel

/-- Non-vacuity of C38: particle 0, its neighbour 4, and the images of 1 and 3 across the faces. -/
example : (do let ll ← buildCells 8 boxPts 10 true; searchSphere ll 10 3 ![1/2, 1/2, 1/2]) =
    .ok [(3, 27/4), (1, 11/4), (0, 0), (4, 1)] := by decide +kernel
example : (do let ll ← buildCells 8 boxPts 10 true; searchShell ll 10 (1/2) 3 ![1/2, 1/2, 1/2]) =
    .ok [(3, 27/4), (1, 11/4), (4, 1)] := by decide +kernel
example : (do let ll ← buildCells 8 boxPts 10 true; searchCylinder ll 10 1 (5/2) ![1/2, 1/2, 1/2]) =
    .ok [(1, 5/2), (0, 0), (4, 1)] := by decide +kernel

/-- C38, finding: if the search sphere overflows the periodic box, a particle is reported more than
once (here particle 0, at the centre of the search, is reported eight times). -/
theorem C38_overflow_finding :
    (do let ll ← buildCells 2 [(![1, 1, 1] : Fin 3 → ℚ)] 10 true; searchSphere ll 10 7 ![1, 1, 1]) =
      .ok (List.replicate 8 (0, 0)) := by
  decide +kernel

/-- C38, finding: without a box size the range of every axis starts from the first two coordinates of
the first particle. If the first is the larger one, the cell width can come out negative, and then
nothing is found, not even a particle at the centre of the search. -/
theorem C38_auto_range_finding :
    (do let ll ← buildCells 4 [(![10, 0, 5] : Fin 3 → ℚ)] 0 false
        searchSphere ll 10 3 ![10, 0, 5]) = .ok [] := by
  decide +kernel

/-- C38, finding: `SearchSphere` wraps separations with the box size of the configuration, while the
cells are wrapped with the box size given to the list. If the two differ, particles inside the
radius are missed. -/
theorem C38_two_boxes_finding :
    (do let ll ← buildCells 4 [(![1, 1, 1] : Fin 3 → ℚ)] 10 true; searchSphere ll 100 3 ![9, 1, 1]) =
      .ok [] ∧
    CloserThan true 10 3 (![1, 1, 1] : Fin 3 → ℚ) ![9, 1, 1] := by
  refine ⟨by decide +kernel, ?_⟩
  simp only [CloserThan, if_true]
  exact ⟨![1, 0, 0], by decide +kernel⟩

end HBT.Props
