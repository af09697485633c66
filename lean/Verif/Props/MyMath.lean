import Verif.Lemmas.Basics
import Mathlib.Tactic.Linarith
import Mathlib.Tactic.FieldSimp
import Mathlib.Tactic.Ring
import Mathlib.Data.Rat.Floor
/-!
# C01–C04: offsets, task splitting, domain decomposition, periodic wrapping
-/
namespace HBT.Props
open HBT HBT.Model HBT.Spec

/-! ## C01 -/

/-- C01. For every list of counts, the offset table has one entry per count, entry `i`
is the sum of the counts before `i`, the returned total is the sum of all counts and
every position below the total lies in exactly one block `[offset, offset+count)`. -/
theorem C01_offsets_tile (counts offsets : List Nat) (total : Nat)
    (hrun : compileOffsets counts = (offsets, total)) :
    offsets.length = counts.length ∧
    total = counts.sum ∧
    (∀ i, i < counts.length → offsets[i]? = some (counts.take i).sum) ∧
    (∀ x, x < total → ∃! i : Nat, ∃ o c, offsets[i]? = some o ∧ counts[i]? = some c ∧
        o ≤ x ∧ x < o + c) := by
  have h1 : offsets = (compileOffsetsFrom 0 counts).1 := by
    rw [← compileOffsets, hrun]
  have h2 : total = (compileOffsetsFrom 0 counts).2 := by
    rw [← compileOffsets, hrun]
  have hlen : offsets.length = counts.length := by
    rw [h1, compileOffsetsFrom_length]
  have htot : total = counts.sum := by rw [h2, compileOffsetsFrom_total]; omega
  have hget : ∀ i, i < counts.length → offsets[i]? = some (counts.take i).sum := by
    intro i hi; rw [h1, compileOffsetsFrom_get 0 counts i hi]; simp
  refine ⟨hlen, htot, hget, ?_⟩
  intro x hx
  rw [htot] at hx
  obtain ⟨i, ⟨hi, hlo, hhi⟩, huniq⟩ := exactCover_of_adjacent (adjacent_prefixSums counts) x hx
  simp only at hlo hhi
  rw [sum_take_succ' counts i hi] at hhi
  refine ⟨i, ⟨_, counts[i], hget i hi, by simp [hi], hlo, hhi⟩, ?_⟩
  rintro j ⟨o, c, ho, hc, hlo', hhi'⟩
  have hj : j < counts.length := by
    rcases Nat.lt_or_ge j counts.length with h | h
    · exact h
    · simp [List.getElem?_eq_none h] at hc
  apply huniq
  rw [hget j hj] at ho
  simp [hj] at ho hc
  refine ⟨hj, by simp only; omega, ?_⟩
  simp only
  rw [sum_take_succ' counts j hj]; omega

example : compileOffsets [3, 0, 2, 5] = ([0, 3, 3, 5], 10) := by decide

/-! ## C02 -/

theorem assignTasks_ok (w P n : Nat) (hP : w < P) :
    assignTasks w P n =
      .ok (n / P * w + min (n % P) w, n / P * (w+1) + min (n % P) (w+1)) := by
  have hP0 : P ≠ 0 := by omega
  have hdm := Nat.div_add_mod n P
  have hmod := Nat.mod_lt n (Nat.pos_of_ne_zero hP0)
  set q := n / P
  set r := n % P
  have hend : (if w < r then q + 1 else q) + (q * w + min r w)
      = q * (w+1) + min r (w+1) := by
    rw [Nat.mul_succ]; split <;> omega
  have hle : q * (w+1) + min r (w+1) ≤ n := by
    have : q * (w+1) ≤ q * P := Nat.mul_le_mul_left q hP
    have h2 : P * q = q * P := Nat.mul_comm _ _
    omega
  unfold assignTasks
  simp only [if_neg hP0]
  show (if (if w < r then q + 1 else q) + (q * w + min r w) ≤ n then _ else _) = _
  rw [hend, if_pos hle]

/-- C02. For every number of workers `P ≥ 1` and tasks `n`, every worker's call succeeds
(no division by zero, the assertion holds), worker ranges are adjacent from `0` to `n`,
each task goes to exactly one worker, and every worker gets `⌊n/P⌋` tasks, plus one for
the first `n mod P` workers. -/
theorem C02_fair_split (P n : Nat) (hP : 0 < P) :
    ∃ seg : Nat → Nat × Nat,
      (∀ w, w < P → assignTasks w P n = .ok (seg w)) ∧
      Adjacent seg P n ∧ ExactCover seg P n ∧
      (∀ w, w < P → (seg w).2 - (seg w).1 = n / P + (if w < n % P then 1 else 0)) := by
  have hadj : Adjacent (fun w => (n / P * w + min (n % P) w,
      n / P * (w+1) + min (n % P) (w+1))) P n := by
    have hdm := Nat.div_add_mod n P
    have hmod := Nat.mod_lt n hP
    refine ⟨fun i _ => ?_, fun _ => by simp, fun i _ => rfl, fun _ => ?_, fun h => by omega⟩
    · simp only [Nat.mul_succ]
      generalize n / P = q at *
      omega
    · have : P - 1 + 1 = P := by omega
      simp only [this]
      rw [Nat.mul_comm] at hdm
      omega
  refine ⟨_, fun w hw => assignTasks_ok w P n hw, hadj, exactCover_of_adjacent hadj, ?_⟩
  intro w _
  simp only [Nat.mul_succ]
  generalize n / P = q
  split <;> omega

/-- C02, balance: two workers' shares differ by at most one task. -/
theorem C02_balanced (P n v w : Nat) (hv : v < P) (hw : w < P) (bv ev bw ew : Nat)
    (h1 : assignTasks v P n = .ok (bv, ev)) (h2 : assignTasks w P n = .ok (bw, ew)) :
    ev - bv ≤ ew - bw + 1 := by
  rw [assignTasks_ok v P n hv] at h1
  rw [assignTasks_ok w P n hw] at h2
  simp only [Outcome.ok.injEq, Prod.mk.injEq, Nat.mul_succ] at h1 h2
  omega

example : (List.range 4).map (fun w => assignTasks w 4 10)
    = [.ok (0, 3), .ok (3, 6), .ok (6, 8), .ok (8, 10)] := by decide

/-! ## C03 -/

theorem largestRootFactorLoop_dvd (N x : Nat) (hx : 0 < x) :
    0 < largestRootFactorLoop N x ∧ largestRootFactorLoop N x ∣ N ∧
      largestRootFactorLoop N x ≤ x := by
  induction x with
  | zero => omega
  | succ x ih =>
    simp only [largestRootFactorLoop]
    split
    · rename_i h
      exact ⟨by omega, Nat.dvd_of_mod_eq_zero h, le_refl _⟩
    · rename_i h
      have hx' : 0 < x := by
        rcases Nat.eq_zero_or_pos x with h0 | h0
        · subst h0; simp [Nat.mod_one] at h
        · exact h0
      have := ih hx'
      exact ⟨this.1, this.2.1, by omega⟩

/-- Facts about the floating-point start value `floor(pow(N,1./dim))` used by the code:
it is at least 1 for `N ≥ 1`, and for `dim = 1` it is `N` itself. -/
structure RootOk (root : Nat → Nat → Nat) : Prop where
  pos : ∀ N dim, 0 < N → 0 < dim → 0 < root N dim
  one : ∀ N, root N 1 = N

/-- C03, factorisation. For every process count `N ≥ 1` and dimension `dim ≥ 1`, whatever
the rounding of `pow` (as long as it is at least 1, and exact for exponent 1), the
factors exist (no division by zero), there are `dim` of them, all are positive
and their product is `N`. -/
theorem C03_factors (root : Nat → Nat → Nat) (hr : RootOk root) (N dim : Nat)
    (hN : 0 < N) (hd : 0 < dim) :
    ∃ f, closestFactors root N dim = .ok f ∧ f.length = dim ∧ (∀ x ∈ f, 0 < x) ∧
      f.prod = N := by
  induction dim generalizing N with
  | zero => omega
  | succ d ih =>
    have hx := largestRootFactorLoop_dvd N (root N (d+1)) (hr.pos N _ hN (by omega))
    have hne : ¬ largestRootFactor root N (d+1) = 0 := by
      unfold largestRootFactor; omega
    rw [closestFactors]
    simp only [if_neg hne]
    unfold largestRootFactor
    rcases Nat.eq_zero_or_pos d with h0 | h0
    · subst h0
      refine ⟨[N], ?_, by simp, by simpa using hN, by simp⟩
      have h1 : largestRootFactorLoop N (root N (0+1)) = N := by
        have : root N (0+1) = N := hr.one N
        rw [this]
        cases N with
        | zero => omega
        | succ n => simp [largestRootFactorLoop]
      simp [h1, closestFactors]
    · have hpos : 0 < N / largestRootFactorLoop N (root N (d+1)) :=
        Nat.div_pos (Nat.le_of_dvd hN hx.2.1) hx.1
      obtain ⟨f, hf, hl, hp, hprod⟩ := ih _ hpos h0
      refine ⟨largestRootFactorLoop N (root N (d+1)) :: f, by simp [hf], by simp [hl], ?_, ?_⟩
      · intro y hy
        rcases List.mem_cons.mp hy with h | h
        · rw [h]; exact hx.1
        · exact hp y h
      · rw [List.prod_cons, hprod, Nat.mul_div_cancel' hx.2.1]

/-- An integer root meeting `RootOk`. -/
def exampleRoot (N dim : Nat) : Nat := if dim = 1 then N else if dim = 2 then 3 else 2

example : closestFactors exampleRoot 12 3 = .ok [2, 3, 2] := by decide
example : RootOk exampleRoot where
  pos N dim hN _ := by unfold exampleRoot; split <;> [omega; split <;> omega]
  one N := by simp [exampleRoot]

section Field
variable {K : Type} [Field K] [LinearOrder K] [IsStrictOrderedRing K] [FloorRing K]

omit [IsStrictOrderedRing K] in
theorem getGrid_range (x step : K) (dim : Int) (hd : 0 < dim) :
    0 ≤ getGrid x step dim ∧ getGrid x step dim < dim := by
  unfold getGrid
  simp only
  split <;> split <;> omega

/-- The cell of a position inside the box along one axis is the one whose interval
contains it. -/
theorem getGrid_interior (x step : K) (dim : Int) (hs : 0 < step)
    (h0 : 0 ≤ x) (h1 : x < step * dim) :
    (getGrid x step dim : K) * step ≤ x ∧ x < ((getGrid x step dim : K) + 1) * step := by
  have hf0 : 0 ≤ ⌊x / step⌋ := Int.floor_nonneg.mpr (div_nonneg h0 hs.le)
  have hf1 : ⌊x / step⌋ < dim := by
    apply Int.floor_lt.mpr
    rw [div_lt_iff₀ hs]; linarith
  have : getGrid x step dim = ⌊x / step⌋ := by
    unfold getGrid
    simp only
    rw [if_neg (by omega), if_neg (by omega)]
  rw [this]
  constructor
  · rw [← le_div_iff₀ hs]; exact Int.floor_le _
  · rw [← div_lt_iff₀ hs]; exact Int.lt_floor_add_one _

omit [IsStrictOrderedRing K] in
/-- C03, owner rank. For every position (inside the box or not) and every factorisation
of the process count `P` into three positive factors, the computed rank is a valid rank. -/
theorem C03_rank_valid (pos step : Fin 3 → K) (d0 d1 d2 : Int)
    (h0 : 0 < d0) (h1 : 0 < d1) (h2 : 0 < d2) :
    ∃ r, assignCell pos step [d0, d1, d2] = .ok r ∧ 0 ≤ r ∧ r < d0 * d1 * d2 := by
  have g0 := getGrid_range (pos 0) (step 0) d0 h0
  have g1 := getGrid_range (pos 1) (step 1) d1 h1
  have g2 := getGrid_range (pos 2) (step 2) d2 h2
  refine ⟨_, by simp [assignCell, Outcome.get]; rfl, ?_, ?_⟩
  · nlinarith [mul_nonneg g0.1 h1.le, mul_nonneg (add_nonneg (mul_nonneg g0.1 h1.le) g1.1) h2.le]
  · have e1 : getGrid (pos 0) (step 0) d0 * d1 + getGrid (pos 1) (step 1) d1 + 1 ≤ d0 * d1 := by
      nlinarith
    nlinarith

omit [IsStrictOrderedRing K] in
/-- C03, end to end. For every process count `P ≥ 1`, the three factors computed by the code give
every position a rank in `[0, P)`. -/
theorem C03_decomposition (root : Nat → Nat → Nat) (hr : RootOk root) (P : Nat) (hP : 0 < P)
    (step : Fin 3 → K) :
    ∃ f, closestFactors root P 3 = .ok f ∧ f.prod = P ∧ ∀ pos : Fin 3 → K,
      ∃ r, assignCell pos step (f.map Int.ofNat) = .ok r ∧ 0 ≤ r ∧ r < P := by
  obtain ⟨f, hf, hl, hp, hprod⟩ := C03_factors root hr P 3 hP (by omega)
  match f, hl with
  | [a, b, c], _ =>
    refine ⟨[a, b, c], hf, hprod, fun pos => ?_⟩
    have ha := hp a (by simp)
    have hb := hp b (by simp)
    have hc := hp c (by simp)
    obtain ⟨r, h1, h2, h3⟩ := C03_rank_valid pos step a b c (by omega) (by omega) (by omega)
    refine ⟨r, h1, h2, ?_⟩
    rw [← hprod]
    simpa [mul_assoc] using h3

/-- C03, distinct cells. Two positions inside the box get the same rank iff they lie
in the same rectangular cell on every axis. -/
theorem C03_same_rank_iff_same_cell (p q step : Fin 3 → K) (d0 d1 d2 : Int)
    (h0 : 0 < d0) (h1 : 0 < d1) (h2 : 0 < d2) (hs : ∀ i, 0 < step i)
    (hp : ∀ i, 0 ≤ p i) (hq : ∀ i, 0 ≤ q i)
    (hp0 : p 0 < step 0 * d0) (hp1 : p 1 < step 1 * d1) (hp2 : p 2 < step 2 * d2)
    (hq0 : q 0 < step 0 * d0) (hq1 : q 1 < step 1 * d1) (hq2 : q 2 < step 2 * d2) :
    assignCell p step [d0, d1, d2] = assignCell q step [d0, d1, d2] ↔
      ∀ i, ∃ c : Int, c * step i ≤ p i ∧ p i < (c + 1) * step i ∧
        c * step i ≤ q i ∧ q i < (c + 1) * step i := by
  have key : ∀ (x s : K) (d : Int), 0 < s → 0 ≤ x → x < s * d → ∀ c : Int,
      c * s ≤ x → x < (c+1) * s → getGrid x s d = c := by
    intro x s d hs hx0 hx1 c hc0 hc1
    have hg := getGrid_interior x s d hs hx0 hx1
    have a1 : (getGrid x s d : K) < c + 1 := lt_of_mul_lt_mul_right (lt_of_le_of_lt hg.1 hc1) hs.le
    have a2 : (c : K) < getGrid x s d + 1 := lt_of_mul_lt_mul_right (lt_of_le_of_lt hc0 hg.2) hs.le
    have b1 : getGrid x s d < c + 1 := by exact_mod_cast a1
    have b2 : c < getGrid x s d + 1 := by exact_mod_cast a2
    omega
  constructor
  · intro heq
    simp [assignCell, Outcome.get] at heq
    have gp0 := getGrid_range (p 0) (step 0) d0 h0
    have gp1 := getGrid_range (p 1) (step 1) d1 h1
    have gp2 := getGrid_range (p 2) (step 2) d2 h2
    have gq0 := getGrid_range (q 0) (step 0) d0 h0
    have gq1 := getGrid_range (q 1) (step 1) d1 h1
    have gq2 := getGrid_range (q 2) (step 2) d2 h2
    have unq : ∀ (d a b x y : Int), 0 ≤ x → x < d → 0 ≤ y → y < d → a * d + x = b * d + y →
        a = b ∧ x = y := by
      intro d a b x y hx0 hx1 hy0 hy1 h
      have hab : a = b := by
        rcases lt_trichotomy a b with h' | h' | h'
        · nlinarith
        · exact h'
        · nlinarith
      subst hab
      exact ⟨rfl, by linarith⟩
    obtain ⟨e, e2⟩ := unq d2 _ _ _ _ gp2.1 gp2.2 gq2.1 gq2.2 heq
    obtain ⟨e0, e1⟩ := unq d1 _ _ _ _ gp1.1 gp1.2 gq1.1 gq1.2 e
    intro i
    match i with
    | 0 =>
      refine ⟨getGrid (p 0) (step 0) d0, ?_, ?_, ?_, ?_⟩
      · exact (getGrid_interior _ _ d0 (hs 0) (hp 0) hp0).1
      · exact (getGrid_interior _ _ d0 (hs 0) (hp 0) hp0).2
      · rw [e0]; exact (getGrid_interior _ _ d0 (hs 0) (hq 0) hq0).1
      · rw [e0]; exact (getGrid_interior _ _ d0 (hs 0) (hq 0) hq0).2
    | 1 =>
      refine ⟨getGrid (p 1) (step 1) d1, ?_, ?_, ?_, ?_⟩
      · exact (getGrid_interior _ _ d1 (hs 1) (hp 1) hp1).1
      · exact (getGrid_interior _ _ d1 (hs 1) (hp 1) hp1).2
      · rw [e1]; exact (getGrid_interior _ _ d1 (hs 1) (hq 1) hq1).1
      · rw [e1]; exact (getGrid_interior _ _ d1 (hs 1) (hq 1) hq1).2
    | 2 =>
      refine ⟨getGrid (p 2) (step 2) d2, ?_, ?_, ?_, ?_⟩
      · exact (getGrid_interior _ _ d2 (hs 2) (hp 2) hp2).1
      · exact (getGrid_interior _ _ d2 (hs 2) (hp 2) hp2).2
      · rw [e2]; exact (getGrid_interior _ _ d2 (hs 2) (hq 2) hq2).1
      · rw [e2]; exact (getGrid_interior _ _ d2 (hs 2) (hq 2) hq2).2
  · intro h
    obtain ⟨c0, a0, b0, a0', b0'⟩ := h 0
    obtain ⟨c1, a1, b1, a1', b1'⟩ := h 1
    obtain ⟨c2, a2, b2, a2', b2'⟩ := h 2
    simp [assignCell, Outcome.get]
    rw [key _ _ d0 (hs 0) (hp 0) hp0 c0 a0 b0, key _ _ d0 (hs 0) (hq 0) hq0 c0 a0' b0',
      key _ _ d1 (hs 1) (hp 1) hp1 c1 a1 b1, key _ _ d1 (hs 1) (hq 1) hq1 c1 a1' b1',
      key _ _ d2 (hs 2) (hp 2) hp2 c2 a2 b2, key _ _ d2 (hs 2) (hq 2) hq2 c2 a2' b2']

/-! ## C04 -/

/-- C04, wrapping. For every coordinate and every box size `L > 0` the wrapped coordinate
lies in `[0, L)` and differs from the input by a whole number of boxes. -/
theorem C04_wrap (x L : K) (hL : 0 < L) :
    0 ≤ positionModulus x L ∧ positionModulus x L < L ∧
      ∃ k : Int, positionModulus x L = x - k * L := by
  unfold positionModulus
  split
  · rename_i h
    exact ⟨h.1, h.2, 0, by simp⟩
  · simp only
    have h0 : 0 ≤ x / L - ⌊x / L⌋ := sub_nonneg.mpr (Int.floor_le _)
    have h1 : x / L - ⌊x / L⌋ < 1 := by linarith [Int.lt_floor_add_one (x / L)]
    refine ⟨mul_nonneg h0 hL.le, by nlinarith, ⌊x / L⌋, ?_⟩
    rw [sub_mul, div_mul_cancel₀ _ hL.ne']

/-- C04, wrapping is determined by the position up to whole boxes. -/
theorem C04_wrap_periodic (x L : K) (hL : 0 < L) (k : Int) :
    positionModulus (x + k * L) L = positionModulus x L := by
  obtain ⟨a0, a1, i, hi⟩ := C04_wrap (x + k * L) L hL
  obtain ⟨b0, b1, j, hj⟩ := C04_wrap x L hL
  have hd : positionModulus (x + k * L) L - positionModulus x L = ((k - i + j : Int) : K) * L := by
    rw [hi, hj]; push_cast; ring
  have h1 : ((k - i + j : Int) : K) * L < 1 * L := by rw [← hd]; linarith
  have h2 : (-1 : K) * L < ((k - i + j : Int) : K) * L := by rw [← hd]; linarith
  have h3 : ((k - i + j : Int) : K) < ((1 : Int) : K) := by
    push_cast at h1 ⊢; exact lt_of_mul_lt_mul_right h1 hL.le
  have h4 : ((-1 : Int) : K) < ((k - i + j : Int) : K) := by
    push_cast at h2 ⊢; exact lt_of_mul_lt_mul_right h2 hL.le
  have h5 : k - i + j < 1 := by exact_mod_cast h3
  have h6 : -1 < k - i + j := by exact_mod_cast h4
  have h7 : k - i + j = 0 := by omega
  rw [h7] at hd
  simp at hd
  linarith

/-- C04, minimum image. For a separation of two coordinates in the box, the returned value is
an image of the separation and no image is shorter. -/
theorem C04_minimum_image (x y L : K) (hL : 0 < L) (hx0 : 0 ≤ x) (hx1 : x < L)
    (hy0 : 0 ≤ y) (hy1 : y < L) :
    (∃ k : Int, nearest L (x - y) = x - y + k * L) ∧
    ∀ k : Int, |nearest L (x - y)| ≤ |x - y + k * L| := by
  have himg : ∃ k : Int, nearest L (x - y) = x - y + k * L := by
    unfold nearest
    simp only
    split
    · exact ⟨-1, by push_cast; ring⟩
    · split
      · exact ⟨1, by push_cast; ring⟩
      · exact ⟨0, by simp⟩
  have hhalf : |nearest L (x - y)| ≤ L / 2 := by
    unfold nearest
    simp only
    rw [abs_le]
    split
    · constructor <;> linarith
    · split
      · constructor <;> linarith
      · constructor <;> linarith
  refine ⟨himg, fun k => ?_⟩
  obtain ⟨j, hj⟩ := himg
  have hk : x - y + k * L = nearest L (x - y) + ((k - j : Int) : K) * L := by
    rw [hj]; push_cast; ring
  rw [hk]
  rcases lt_trichotomy (k - j) 0 with h | h | h
  · have h' : ((k - j : Int) : K) ≤ -1 := by
      have : k - j ≤ -1 := by omega
      exact_mod_cast this
    have hle := (abs_le.mp hhalf).2
    have : nearest L (x - y) + ((k - j : Int) : K) * L ≤ -(L/2) := by nlinarith
    rw [abs_of_nonpos (a := nearest L (x - y) + ((k - j : Int) : K) * L) (by linarith)]
    linarith
  · rw [h]; simp
  · have h' : (1 : K) ≤ ((k - j : Int) : K) := by
      have : 1 ≤ k - j := by omega
      exact_mod_cast this
    have hge := (abs_le.mp hhalf).1
    have : L/2 ≤ nearest L (x - y) + ((k - j : Int) : K) * L := by nlinarith
    rw [abs_of_nonneg (a := nearest L (x - y) + ((k - j : Int) : K) * L) (by linarith)]
    linarith

/-- C04, symmetry of the distance (periodic or not). -/
theorem C04_distance_symm (periodic : Bool) (L : K) (hL : 0 < L) (x y : Fin 3 → K) :
    periodicDistance2 periodic L x y = periodicDistance2 periodic L y x := by
  have h : ∀ i, nearest L (y i - x i) = - nearest L (x i - y i) := by
    intro i
    unfold nearest
    simp only
    split_ifs <;> linarith
  unfold periodicDistance2
  cases periodic
  · simp; ring
  · simp [h]

/-- C04, the periodic squared distance of two points in the box is at most the squared distance
of any pair of their images. -/
theorem C04_distance_minimal (L : K) (hL : 0 < L) (x y : Fin 3 → K)
    (hx : ∀ i, 0 ≤ x i ∧ x i < L) (hy : ∀ i, 0 ≤ y i ∧ y i < L) (k : Fin 3 → Int) :
    periodicDistance2 true L x y ≤
      (x 0 - y 0 + k 0 * L) ^ 2 + (x 1 - y 1 + k 1 * L) ^ 2 + (x 2 - y 2 + k 2 * L) ^ 2 := by
  have h : ∀ i, nearest L (x i - y i) * nearest L (x i - y i) ≤ (x i - y i + k i * L) ^ 2 := by
    intro i
    have := (C04_minimum_image (x i) (y i) L hL (hx i).1 (hx i).2 (hy i).1 (hy i).2).2 (k i)
    rw [← pow_two]
    exact sq_le_sq.mpr this
  simp only [periodicDistance2, if_true]
  linarith [h 0, h 1, h 2]

end Field

example : positionModulus (-1/4 : ℚ) 10 = 39/4 := by
  norm_num [positionModulus]
example : nearest (10 : ℚ) (9 - 1) = -2 := by norm_num [nearest]
example : assignCell (K := ℚ) (fun i => [1, 7, 12][i]) (fun _ => 5) [2, 2, 2] = .ok 3 := by
  norm_num [assignCell, getGrid, Outcome.get]

end HBT.Props
