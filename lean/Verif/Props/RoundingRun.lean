import Verif.Model.SingleMass
import Verif.Props.Rounding
import Verif.Props.Run
import Verif.Props.RunExample
/-!
# C75: runs with masses in single precision

The theorems about runs hold for any way of adding up masses. Here they are applied to the sums that the program makes, with rounding
after each addition and any distribution over threads; and the masses that it gives are close to the exact sums.
-/
namespace HBT.Props
open HBT HBT.Spec HBT.Model HBT.Model.Single
variable {p : Nat} {fl : ℚ → ℚ}

/-- Rounded sums of non-negative numbers are within a relative error of the exact ones. -/
theorem addUp_bounds {v : ℚ} (hv0 : 0 ≤ v) (hv1 : v ≤ 1) (he : ∀ x, |fl x - x| ≤ |x| * v) (l : List ℚ) (hl : ∀ x ∈ l, 0 ≤ x) :
    (1 - v) ^ l.length * l.sum ≤ addUp fl l ∧ addUp fl l ≤ (1 + v) ^ l.length * l.sum := by
  induction l using List.reverseRecOn with
  | nil => simp [addUp]
  | append_singleton l m ih =>
    obtain ⟨i1, i2⟩ := ih (fun x hx => hl x (List.mem_append_left _ hx))
    have hm : 0 ≤ m := hl m (by simp)
    have hs : 0 ≤ l.sum := List.sum_nonneg (fun x hx => hl x (List.mem_append_left _ hx))
    have e : addUp fl (l ++ [m]) = fl (addUp fl l + m) := by simp [addUp, List.foldl_append]
    have hlen : (l ++ [m]).length = l.length + 1 := by simp
    have hsum : (l ++ [m]).sum = l.sum + m := by simp
    rw [e, hlen, hsum, pow_succ, pow_succ]
    have a0 : 0 ≤ (1 - v) ^ l.length := pow_nonneg (by linarith) _
    have a1 : (1 - v) ^ l.length ≤ 1 := pow_le_one₀ (by linarith) (by linarith)
    have b1 : 1 ≤ (1 + v) ^ l.length := one_le_pow₀ (by linarith)
    have c0 : 0 ≤ addUp fl l + m := by nlinarith
    have h := abs_le.1 (he (addUp fl l + m))
    rw [abs_of_nonneg c0] at h
    constructor
    · have : (1 - v) ^ l.length * (l.sum + m) ≤ addUp fl l + m := by nlinarith
      nlinarith [h.1]
    · have : addUp fl l + m ≤ (1 + v) ^ l.length * (l.sum + m) := by nlinarith
      nlinarith [h.2]

theorem addUp_nonneg (h : RoundsToNearest p fl) (l : List ℚ) (hl : ∀ x ∈ l, 0 ≤ x) : 0 ≤ addUp fl l := by
  induction l using List.reverseRecOn with
  | nil => simp [addUp]
  | append_singleton l m ih =>
    have e : addUp fl (l ++ [m]) = fl (addUp fl l + m) := by simp [addUp, List.foldl_append]
    rw [e]
    exact h.rep_le Rep.zero (add_nonneg (ih (fun x hx => hl x (List.mem_append_left _ hx))) (hl m (by simp)))

/-- C75: sums of non-negative masses are not negative, in whichever way the program makes them. -/
theorem C75_sums_nonneg (M : Machine) : @NonnegSums Single _ (sums M) := by
  intro l m hl h
  have hl' : ∀ x ∈ l.map Single.val, (0 : ℚ) ≤ x := by
    intro x hx
    obtain ⟨y, hy, rfl⟩ := List.mem_map.1 hx
    exact hl y hy
  rcases h with rfl | ⟨way, rfl⟩
  · exact addUp_nonneg M.single_ _ hl'
  · show (0 : ℚ) ≤ M.single _
    refine M.single_.rep_le Rep.zero (addUp_nonneg M.double_ _ ?_)
    intro x hx
    obtain ⟨g, hg, rfl⟩ := List.mem_map.1 hx
    refine addUp_nonneg M.double_ _ ?_
    intro x hx
    obtain ⟨y, hy, rfl⟩ := List.mem_map.1 hx
    exact hl y ((M.groups_ way l).mem_iff.1 (List.mem_flatten.2 ⟨g, hg, hy⟩))

/-- C75, masses: the mass that `CountParticles` gives is the sum of the masses up to a relative error of `2^-24` for each of them. -/
theorem C75_count (M : Machine) (l : List Single) (hl : ∀ x ∈ l, (0 : ℚ) ≤ x.val) :
    Near ((2 : ℚ) ^ (-24 : Int)) l.length (l.map Single.val).sum ((sums M).count l).val := by
  have := addUp_bounds (fl := M.single) (v := (2 : ℚ) ^ (-24 : Int)) (by positivity) (by norm_num)
    (fun x => by simpa using M.single_.error (by norm_num) x) (l.map Single.val) (by
      intro x hx
      obtain ⟨y, hy, rfl⟩ := List.mem_map.1 hx
      exact hl y hy)
  rw [List.length_map] at this
  exact this

theorem sum_within {v : ℚ} (hv0 : 0 ≤ v) (hv1 : v ≤ 1) (he : ∀ x, |fl x - x| ≤ |x| * v) (n : Nat) (gs : List (List ℚ))
    (hn : ∀ g ∈ gs, g.length ≤ n) (h0 : ∀ g ∈ gs, ∀ x ∈ g, 0 ≤ x) :
    (1 - v) ^ n * gs.flatten.sum ≤ (gs.map (addUp fl)).sum ∧ (gs.map (addUp fl)).sum ≤ (1 + v) ^ n * gs.flatten.sum := by
  induction gs with
  | nil => simp
  | cons g gs ih =>
    obtain ⟨i1, i2⟩ := ih (fun g hg => hn g (List.mem_cons_of_mem _ hg)) (fun g hg => h0 g (List.mem_cons_of_mem _ hg))
    obtain ⟨j1, j2⟩ := addUp_bounds hv0 hv1 he g (h0 g (by simp))
    have hs : 0 ≤ g.sum := List.sum_nonneg (h0 g (by simp))
    have k1 : (1 - v) ^ n ≤ (1 - v) ^ g.length := pow_le_pow_of_le_one (by linarith) (by linarith) (hn g (by simp))
    have k2 : (1 + v) ^ g.length ≤ (1 + v) ^ n := pow_le_pow_right₀ (by linarith) (hn g (by simp))
    simp only [List.flatten_cons, List.sum_append, List.map_cons, List.sum_cons, mul_add]
    constructor
    · nlinarith
    · nlinarith

/-- C75, masses: the mass that unbinding gives is the sum of the masses up to a relative error of `2^-53` for each of them and for
each thread, and one of `2^-24` for the conversion; whatever the order and the distribution over the threads. -/
theorem C75_average (M : Machine) (way : Nat) (l : List Single) (hl : ∀ x ∈ l, (0 : ℚ) ≤ x.val) :
    ∃ y, Near ((2 : ℚ) ^ (-53 : Int)) (l.length + M.threads) (l.map Single.val).sum y ∧
      Near ((2 : ℚ) ^ (-24 : Int)) 1 y ((sums M).average way l).val := by
  set v := (2 : ℚ) ^ (-53 : Int) with hv
  have hv0 : 0 ≤ v := by positivity
  have hv1 : v ≤ 1 := by rw [hv]; norm_num
  have hmem : ∀ g ∈ M.groups way l, ∀ x ∈ g, x ∈ l := fun g hg x hx => (M.groups_ way l).mem_iff.1 (List.mem_flatten.2 ⟨g, hg, hx⟩)
  set gs := (M.groups way l).map (List.map Single.val) with hgs
  have e1 : (M.groups way l).map (fun g => addUp M.double (g.map Single.val)) = gs.map (addUp M.double) := by rw [hgs, List.map_map]; rfl
  have e2 : gs.flatten.sum = (l.map Single.val).sum := by
    rw [hgs, ← List.map_flatten]
    exact ((M.groups_ way l).map _).sum_eq
  have e3 : gs.length = (M.groups way l).length := by rw [hgs, List.length_map]
  have h0 : ∀ g ∈ gs, ∀ x ∈ g, (0 : ℚ) ≤ x := by
    intro g hg x hx
    rw [hgs] at hg
    obtain ⟨g', hg', rfl⟩ := List.mem_map.1 hg
    obtain ⟨y, hy, rfl⟩ := List.mem_map.1 hx
    exact hl y (hmem g' hg' y hy)
  have hn : ∀ g ∈ gs, g.length ≤ l.length := by
    intro g hg
    rw [hgs] at hg
    obtain ⟨g', hg', rfl⟩ := List.mem_map.1 hg
    rw [List.length_map, ← (M.groups_ way l).length_eq]
    exact (List.sublist_flatten_of_mem hg').length_le
  have he : ∀ x, |M.double x - x| ≤ |x| * v := fun x => by simpa [hv] using M.double_.error (by norm_num) x
  obtain ⟨a1, a2⟩ := sum_within hv0 hv1 he l.length gs hn h0
  obtain ⟨b1, b2⟩ := addUp_bounds hv0 hv1 he (gs.map (addUp M.double)) (by
    intro x hx
    obtain ⟨g, hg, rfl⟩ := List.mem_map.1 hx
    exact addUp_nonneg M.double_ _ (h0 g hg))
  rw [List.length_map, e3] at b1 b2
  rw [e2] at a1 a2
  have hA := addUp_nonneg M.double_ (gs.map (addUp M.double)) (by
    intro x hx
    obtain ⟨g, hg, rfl⟩ := List.mem_map.1 hx
    exact addUp_nonneg M.double_ _ (h0 g hg))
  set A := addUp M.double (gs.map (addUp M.double)) with hAdef
  have hval : ((sums M).average way l).val = M.single A := by
    show M.single (addUp M.double ((M.groups way l).map (fun g => addUp M.double (g.map Single.val)))) = _
    rw [e1]
  have h := abs_le.1 (M.single_.error (by norm_num) A)
  rw [abs_of_nonneg hA] at h
  set u := (2 : ℚ) ^ (-24 : Int) with hu
  have hu' : (2 : ℚ) ^ (-((24 : Nat) : Int)) = u := rfl
  rw [hu'] at h
  have hu0 : 0 ≤ u := by positivity
  have hu1 : u ≤ 1 := by rw [hu]; norm_num
  rw [hval]
  have hS : 0 ≤ (l.map Single.val).sum := List.sum_nonneg (by
    intro x hx
    obtain ⟨y, hy, rfl⟩ := List.mem_map.1 hx
    exact hl y hy)
  have ht := M.threads_ way l
  have hgs0 : 0 ≤ (gs.map (addUp M.double)).sum := List.sum_nonneg (by
    intro x hx
    obtain ⟨g, hg, rfl⟩ := List.mem_map.1 hx
    exact addUp_nonneg M.double_ _ (h0 g hg))
  refine ⟨A, ⟨?_, ?_⟩, ?_, ?_⟩
  · refine le_trans ?_ b1
    have := mul_le_mul_of_nonneg_left a1 (pow_nonneg (by linarith : 0 ≤ 1 - v) M.threads)
    have h2 := mul_le_mul_of_nonneg_right (pow_le_pow_of_le_one (by linarith : 0 ≤ 1 - v) (by linarith) ht) hgs0
    rw [pow_add]
    linarith
  · refine le_trans b2 ?_
    have := mul_le_mul_of_nonneg_left a2 (pow_nonneg (by linarith : 0 ≤ 1 + v) M.threads)
    have h2 := mul_le_mul_of_nonneg_right (pow_le_pow_right₀ (by linarith : 1 ≤ 1 + v) ht) hgs0
    rw [pow_add]
    linarith
  · linarith [h.1]
  · linarith [h.2]

/-- C75, runs: in single precision, with any rounding to nearest and any distribution of the sums over threads, at the end of every
snapshot of every run each subhalo has at least `MinNumPartOfSub` bound particles or is an orphan; its peak mass, isolation and birth
are what they should be according to its history; and if no particles are consumed its mass is that of its bound particles up to
rounding. The bound on `SourceSubRelaxFactor` is the one of `C75_keeps`. -/
theorem C75_run {D E : Type} [LinearOrder E] [Zero E] (M : Machine) {par : Props.Params Single D} (hc : 0 < par.chunk) (hk : SortSpec par.sortKeys)
    (hb : BsearchSpec par.bsearch) (hsort : SortsByMass par.sortMass) (hmin : 2 ≤ par.cfg.minNum) (hfl : par.cfg.fl = M.single)
    (hprec : par.cfg.prec ≤ 1) (hrelax : 1 + (2 : ℚ) ^ (-22 : Int) ≤ par.cfg.relax) (hm : ∀ x, 0 ≤ (par.mass x).val)
    {tr : List (Σ P, Snapshot Single D E P)} (h : @Run Single D E _ (sums M) _ _ par tr) (s : Sub Single D) (hs : s ∈ everyone (latest tr).2) :
    (par.cfg.minNum ≤ s.nbound ∨ (s.nbound ≤ 1 ∧ s.particles.length = s.nbound)) ∧
    Recorded (visits (ends tr) s.trackId) s ∧
    (par.consumed = false →
      let sum := ((s.particles.take s.nbound).map (fun q => (par.mass q.data).val)).sum
      Near ((2 : ℚ) ^ (-24 : Int)) s.nbound sum s.mbound.val ∨
      ∃ y, Near ((2 : ℚ) ^ (-53 : Int)) (s.nbound + M.threads) sum y ∧ Near ((2 : ℚ) ^ (-24 : Int)) 1 y s.mbound.val) := by
  letI := sums M
  have hpar : par.Ok := ⟨hc, hk, hb, hsort, by rw [hfl]; exact C75_stops M.single_ hprec, hmin, by
    rw [hfl]
    exact C75_keeps (by norm_num) M.single_ (by simpa using hrelax)⟩
  obtain ⟨h1, h2, _, h4⟩ := C29_every_state hpar h s hs
  refine ⟨h2, C34_history hpar (C75_sums_nonneg M) hm h s hs, fun hcon => ?_⟩
  have hl : ∀ x ∈ (s.particles.take s.nbound).map (fun q => par.mass q.data), (0 : ℚ) ≤ x.val := by
    intro x hx
    obtain ⟨q, _, rfl⟩ := List.mem_map.1 hx
    exact hm _
  have hlen : ((s.particles.take s.nbound).map (fun q => par.mass q.data)).length = s.nbound := by
    rw [List.length_map, List.length_take, Nat.min_eq_left h1]
  have hmap : ((s.particles.take s.nbound).map (fun q => par.mass q.data)).map Single.val =
    (s.particles.take s.nbound).map (fun q => (par.mass q.data).val) := by rw [List.map_map]; rfl
  rcases h4 hcon with e | ⟨way, e⟩
  · left
    have := C75_count M _ hl
    rw [hlen, hmap] at this
    rw [e]
    exact this
  · right
    have := C75_average M way _ hl
    rw [hlen, hmap] at this
    rw [e]
    exact this

/-! ## A concrete case -/

/-- Two threads at most; with odd `way` the first mass is added by a thread of its own. -/
def exMachine : Machine where
  threads := 2
  single := roundTo 24
  double := roundTo 53
  groups way l := if way % 2 = 1 then [l.take 1, l.drop 1] else [l]
  single_ := roundTo_nearest (by norm_num)
  double_ := roundTo_nearest (by norm_num)
  threads_ way l := by split_ifs <;> simp
  groups_ way l := by
    split_ifs
    · rw [List.flatten_cons, List.flatten_cons, List.flatten_nil, List.append_nil, List.take_append_drop]
    · simp

/-- The heavy particles have a mass of `2^24`, the others of 1/2. -/
def exMassF (n : Nat) : Single := if n = 0 then ⟨1 / 2, 1, -1, by norm_num, by norm_num⟩ else ⟨2 ^ 24, 1, 24, by norm_num, by norm_num⟩

/-- The two ways of adding up give different results. -/
example : ((sums exMachine).count ([1, 0, 0, 0, 0].map exMassF)).val = 2 ^ 24 ∧
    ((sums exMachine).average 0 ([1, 0, 0, 0, 0].map exMassF)).val = 2 ^ 24 + 2 := by decide +kernel
/-- In double precision the order counts, too. -/
example : addUp exMachine.double [2 ^ 54, 1, 1, 1] = 2 ^ 54 ∧ addUp exMachine.double [1, 1, 1, 2 ^ 54] = 2 ^ 54 + 4 := by decide +kernel

def exSortF (subs : List (Sub Single Nat)) (l : List Nat) : List Nat :=
  l.insertionSort (fun i j => ((subs[j]?).map (fun s => s.mbound.val)).getD 0 ≤ ((subs[i]?).map (fun s => s.mbound.val)).getD 0)

theorem exSortF_spec : SortsByMass exSortF := by
  intro subs l _
  refine ⟨List.perm_insertionSort _ _, ?_⟩
  haveI : Std.Total (fun i j : Nat => ((subs[j]?).map (fun s => s.mbound.val)).getD 0 ≤ ((subs[i]?).map (fun s => s.mbound.val)).getD 0) :=
    ⟨fun a b => le_total _ _⟩
  haveI : IsTrans Nat (fun i j : Nat => ((subs[j]?).map (fun s => s.mbound.val)).getD 0 ≤ ((subs[i]?).map (fun s => s.mbound.val)).getD 0) :=
    ⟨fun _ _ _ h h' => le_trans h' h⟩
  refine (List.pairwise_insertionSort _ l).imp (fun {a b} h x y hx hy => ?_)
  have : y.mbound.val ≤ x.mbound.val := by simpa [hx, hy] using h
  exact this

def exParF : Params Single Nat :=
  { chunk := 8, sortKeys := exKeySort, bsearch := exampleBsearch, sortMass := exSortF
    cfg := { minNum := 2, maxSample := 0, refine := false, prec := 16693330 / 2 ^ 24, relax := 3, fl := roundTo 24 }
    mass := exMassF, merging := true, consumed := false }

def exEnvF (way : Nat) : UnbindEnv Single Nat Int :=
  { energy := fun _ _ => -1, inner := fun _ => 0, junk := fun _ => 0, shuffle := id, sortE := exESort, mass := exMassF, way := way }

def exBornF (h : Int) (ids : List Int) : Sub Single Nat :=
  { mbound := ⟨0, Rep.zero⟩, lastMaxMass := ⟨0, Rep.zero⟩, hostHaloId := h, nbound := ids.length
    particles := ids.map (fun i => ⟨i, (i % 5).toNat⟩), snapBirth := 0 }

/-- Two subhaloes of five particles are born, one of them is heavy; they are unbound with different orders of the sums. -/
def exInF : Inputs Single Nat Int 1 :=
  { snap := 0, moved := fun _ => [], old := fun _ => [], new := fun _ => [exBornF 0 [1, 5, 10, 15, 20], exBornF 1 [25, 30, 35]]
    haloIds := fun _ => [100, 101], groups := fun _ => [[], []], field := fun _ => [], order := fun _ => [1, 0]
    maskOrder := fun _ => [1, 0], hostOrder := fun _ => [0, 1], lone := fun _ => [1, 0], mergeOrder := fun _ => [1, 0]
    each := fun _ => [1, 0], env := fun _ i => exEnvF i, env' := fun _ _ => exEnvF 0, sunk := fun _ _ _ => false }

theorem exEnvF_ok (way : Nat) : EnvOk (exEnvF way) := ⟨exESort_spec, fun _ => List.Perm.refl _⟩

/-- The hypotheses of `C75_run` are met by a run. -/
example : ∃ d : Snapshot Single Nat Int 1, d.toInputs = exInF ∧ ∀ s ∈ everyone d.out,
    Recorded (visits (ends [⟨1, d⟩]) s.trackId) s ∧
    (Near ((2 : ℚ) ^ (-24 : Int)) s.nbound (((s.particles.take s.nbound).map (fun q => (exMassF q.data).val)).sum) s.mbound.val ∨
      ∃ y, Near ((2 : ℚ) ^ (-53 : Int)) (s.nbound + 2) (((s.particles.take s.nbound).map (fun q => (exMassF q.data).val)).sum) y ∧
        Near ((2 : ℚ) ^ (-24 : Int)) 1 y s.mbound.val) := by
  letI := sums exMachine
  have hprec : exParF.cfg.prec ≤ 1 := by norm_num [exParF]
  have hrelax : 1 + (2 : ℚ) ^ (-22 : Int) ≤ exParF.cfg.relax := by norm_num [exParF]
  have hmass : ∀ x, 0 ≤ (exParF.mass x).val := fun x => by
    show 0 ≤ (exMassF x).val
    unfold exMassF
    split_ifs <;> norm_num
  have hpar : exParF.Ok := ⟨by decide, exKeySort_spec, exampleBsearch_spec, exSortF_spec, C75_stops exMachine.single_ hprec, by decide,
    C75_keeps (by norm_num) exMachine.single_ (by simpa using hrelax)⟩
  obtain ⟨d, ⟨hd, hrun⟩, _⟩ := C51_never_fails (E := Int) hpar (tr := []) .start exInF
    { snap := by decide
      arrival := arrival_of_checks _ _ _ _ _ _ _ (by decide +kernel) (by decide +kernel) (by decide +kernel) (by decide +kernel)
        (by decide +kernel) (by decide +kernel) (by decide +kernel) (by decide +kernel) (by decide +kernel)
      moved := by decide +kernel
      carried := fun _ => .nil
      born := by decide +kernel
      maskOrder := by decide +kernel, hostOrder := by decide +kernel, lone := by decide +kernel, mergeOrder := by decide +kernel
      each := by decide +kernel
      env := fun _ _ => ⟨exEnvF_ok _, rfl⟩, env' := fun _ _ => ⟨exEnvF_ok _, rfl⟩ }
    (fun _ h => by cases h)
  refine ⟨d, hd, fun s hs => ?_⟩
  obtain ⟨_, h2, h3⟩ := C75_run (E := Int) exMachine (par := exParF) (by decide) exKeySort_spec exampleBsearch_spec exSortF_spec (by decide) rfl hprec hrelax
    hmass hrun s hs
  exact ⟨h2, h3 rfl⟩

/-- The mass of the heavy one is not the sum in the order of the particles. -/
example : (match @unbind Single Nat Int _ _ _ (sums exMachine) exParF.cfg (exEnvF 1) 9 0 (exBornF 0 [1, 5, 10, 15, 20]) with
    | .ok s => some (s.nbound, s.mbound.val)
    | _ => none) = some (5, 2 ^ 24 + 2) := by decide +kernel

end HBT.Props
