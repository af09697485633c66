import Verif.Props.OctTree
/-!
# C42: neighbour searches in the oct-tree
-/
set_option linter.unusedSectionVars false
namespace HBT.Props
open HBT.Model HBT.Spec HBT.OT
section Field
variable {K : Type} [Field K] [LinearOrder K] [IsStrictOrderedRing K]

/-- A search tree that `Build` returned, for the particles `x p`, `p < N`; in a periodic box they are
inside the box. -/
structure GeoTreeOf (periodic : Bool) (L : K) (pts : List (Fin 3 → K)) (N : Nat) (x : Nat → Fin 3 → K) (t : Tree K Int) : Prop where
  built : ∃ res resHalf rand fuel old num, res = 2 * resHalf ∧ Content pts num N x ∧
    buildTree geoRule res resHalf rand fuel old pts num = .ok t
  box : periodic = true → 0 < L ∧ ∀ p < N, InBox L (x p)

/-- The particle `f.1` is reported at squared separation `f.2` from `c`. -/
def Located (periodic : Bool) (L : K) (N : Nat) (x : Nat → Fin 3 → K) (c : Fin 3 → K) (f : Nat × K) : Prop :=
  f.1 < N ∧ Separation periodic L (x f.1) c f.2

theorem search_hits {periodic : Bool} {L : K} {pts : List (Fin 3 → K)} {N : Nat} {x : Nat → Fin 3 → K} {t : Tree K Int}
    (h : GeoTreeOf periodic L pts N x t) (c : Fin 3 → K) (hc : periodic = true → InBox L c) (radius : K) :
    ∃ l : List Nat, l.Perm (List.range N) ∧ ∀ (R : Type) (collect : R → Nat → K → R) (col : R),
      treeSearch periodic L pts N t c radius collect col =
        .ok ((l.filterMap (hit periodic L radius c pts)).foldl (fun r f => collect r f.1 f.2) col) := by
  obtain ⟨⟨res, resHalf, rand, fuel, old, num, hres, hcon, ht⟩, hbox⟩ := h
  obtain ⟨h1, h2, h3, h4⟩ := hcon
  subst h3
  obtain ⟨len, c0, kids, hb⟩ := built_of_ok hres h1 h2 (fun _ _ _ => rfl) ht (add := geoAdd)
  have hlt : ∀ p ∈ (Oct.node 0 kids).leaves, p < count pts num := fun p hp => List.mem_range.1 (hb.leaves.mem_iff.1 hp)
  refine ⟨_, hb.leaves, fun R collect col => ?_⟩
  have hw := hb.walk (particle := fun p acc => do
      let x ← Outcome.get pts p
      match treeParticleTest periodic L radius c x with
      | some r2 => .ok (collect acc p r2)
      | none => .ok acc) (pf := hitStep periodic L radius c pts collect)
    (fun p r hp => by
      have hh : hit periodic L radius c pts p = (treeParticleTest periodic L radius c (x p)).map (fun s => (p, s)) := by
        unfold hit; rw [h4 p hp]
      simp only [get_some (h4 p hp), Outcome.bind_ok, hitStep, hh]
      cases treeParticleTest periodic L radius c (x p) <;> rfl)
    (fun w acc => (treeNodeTest periodic L radius c w, acc)) col
  rw [visit_search periodic L radius c collect (fun hp => ⟨(hbox hp).1, hc hp⟩) _ _ _ _ _ hb.lenN (fun hp => ?_) (fun hp p hpm y hy => ?_) hb.placed,
    foldl_hits] at hw
  · exact hw
  · have := hb.box 0 L (fun p hpl y hy d => by
      rw [h4 p hpl] at hy; cases hy
      have := (hbox hp).2 p hpl d
      exact ⟨this.1, this.2.le⟩)
    linarith
  · rw [h4 p (hlt p hpm)] at hy; cases hy
    exact (hbox hp).2 p (hlt p hpm)

theorem hit_iff [FloorRing K] {periodic : Bool} {L : K} {pts : List (Fin 3 → K)} {x : Nat → Fin 3 → K} {c : Fin 3 → K} {radius : K}
    (hr : 0 ≤ radius) {p : Nat} (hp : pts[p]? = some (x p)) (hbox : periodic = true → 0 < L ∧ InBox L (x p) ∧ InBox L c) (f : Nat × K) :
    hit periodic L radius c pts p = some f ↔ f.1 = p ∧ Separation periodic L (x p) c f.2 ∧ f.2 < radius ^ 2 := by
  have key : ∀ s, Separation periodic L (x p) c s ↔ s = LL.sep2 periodic L (x p) c := by
    intro s
    cases periodic with
    | false =>
      exact LL.sep2_separation false 1 one_pos (x p) c (by simp) (by simp) s
    | true => exact LL.sep2_separation true L (hbox rfl).1 (x p) c (fun _ => (hbox rfl).2.1) (fun _ => (hbox rfl).2.2) s
  obtain ⟨q, s⟩ := f
  unfold hit
  rw [hp]
  simp only [Option.map_eq_some_iff]
  rw [key]
  constructor
  · rintro ⟨s', hs', e⟩
    cases e
    rw [particleTest_eq, LL.sphereTest_iff periodic L radius hr c (x p) s] at hs'
    exact ⟨rfl, hs'⟩
  · rintro ⟨rfl, hs⟩
    refine ⟨s, ?_, rfl⟩
    rw [particleTest_eq, LL.sphereTest_iff periodic L radius hr c (x _) s]
    exact hs

theorem hits_nodup {periodic : Bool} {L : K} {pts : List (Fin 3 → K)} {c : Fin 3 → K} {radius : K} {l : List Nat} (hl : l.Nodup) :
    (l.filterMap (hit periodic L radius c pts)).Nodup := by
  have hfst : ∀ p f, hit periodic L radius c pts p = some f → f.1 = p := by
    intro p f hf
    unfold hit at hf
    split at hf
    · obtain ⟨s, -, rfl⟩ := Option.map_eq_some_iff.1 hf; rfl
    · cases hf
  refine hl.filterMap (fun a a' b hb hb' => ?_)
  rw [Option.mem_def] at hb hb'
  rw [← hfst a b hb, ← hfst a' b hb']

/-- C42. A tree search reports exactly the particles closer than the radius (nearest image, if
periodic), each once, with their squared separations, whatever the collector does with them. -/
theorem C42_search [FloorRing K] (periodic : Bool) (L : K) (pts : List (Fin 3 → K)) (N : Nat) (x : Nat → Fin 3 → K) (t : Tree K Int)
    (h : GeoTreeOf periodic L pts N x t) (c : Fin 3 → K) (hc : periodic = true → InBox L c) (radius : K) (hr : 0 ≤ radius) :
    ∃ found : List (Nat × K), found.Nodup ∧ (∀ f, f ∈ found ↔ Located periodic L N x c f ∧ f.2 < radius ^ 2) ∧
      ∀ (R : Type) (collect : R → Nat → K → R) (col : R),
        treeSearch periodic L pts N t c radius collect col = .ok (found.foldl (fun r f => collect r f.1 f.2) col) := by
  obtain ⟨l, hl, hs⟩ := search_hits h c hc radius
  have hpos : ∀ p < N, pts[p]? = some (x p) := by
    obtain ⟨⟨_, _, _, _, _, _, _, hcon, _⟩, _⟩ := h
    exact hcon.pos
  refine ⟨_, hits_nodup (hl.nodup_iff.2 List.nodup_range), fun f => ?_, hs⟩
  rw [List.mem_filterMap]
  constructor
  · rintro ⟨p, hp, hh⟩
    have hpN := List.mem_range.1 (hl.mem_iff.1 hp)
    obtain ⟨e, h1, h2⟩ := (hit_iff hr (hpos p hpN) (fun hper => ⟨(h.box hper).1, (h.box hper).2 p hpN, hc hper⟩) f).1 hh
    unfold Located
    rw [e]
    exact ⟨⟨hpN, h1⟩, h2⟩
  · rintro ⟨⟨h1, h2⟩, h3⟩
    exact ⟨f.1, hl.mem_iff.2 (List.mem_range.2 h1),
      (hit_iff hr (hpos f.1 h1) (fun hper => ⟨(h.box hper).1, (h.box hper).2 f.1 h1, hc hper⟩) f).2 ⟨rfl, h2, h3⟩⟩

/-- C42, search into a list of neighbours (`LocatedParticleCollector_t`). -/
theorem C42_located [FloorRing K] (periodic : Bool) (L : K) (pts : List (Fin 3 → K)) (N : Nat) (x : Nat → Fin 3 → K) (t : Tree K Int)
    (h : GeoTreeOf periodic L pts N x t) (c : Fin 3 → K) (hc : periodic = true → InBox L c) (radius : K) (hr : 0 ≤ radius) :
    ∃ found : List (Nat × K), treeSearch periodic L pts N t c radius collectLocated [] = .ok found ∧ found.Nodup ∧
      ∀ f, f ∈ found ↔ Located periodic L N x c f ∧ f.2 < radius ^ 2 := by
  obtain ⟨found, h1, h2, h3⟩ := C42_search periodic L pts N x t h c hc radius hr
  refine ⟨found, ?_, h1, h2⟩
  rw [h3]
  have : ∀ (l acc : List (Nat × K)), l.foldl (fun r f => collectLocated r f.1 f.2) acc = acc ++ l := by
    intro l
    induction l with
    | nil => intro acc; simp
    | cons a l ih => intro acc; rw [List.foldl_cons, ih]; simp [collectLocated]
  rw [this]; rfl

/-! ## The nearest neighbour -/

theorem hit_nonneg {periodic : Bool} {L radius : K} {c : Fin 3 → K} {pts : List (Fin 3 → K)} {p : Nat} {f : Nat × K}
    (h : hit periodic L radius c pts p = some f) : 0 ≤ f.2 := by
  unfold hit at h
  split at h
  · obtain ⟨s, hs, rfl⟩ := Option.map_eq_some_iff.1 h
    unfold treeParticleTest at hs
    simp only at hs
    split_ifs at hs
    cases hs
    simp only
    nlinarith [mul_self_nonneg (treeOffset periodic L ‹Fin 3 → K› c 0), mul_self_nonneg (treeOffset periodic L ‹Fin 3 → K› c 1),
      mul_self_nonneg (treeOffset periodic L ‹Fin 3 → K› c 2)]
  · cases h

theorem nearest_collects_nothing : ∀ (l : List (Nat × K)), (∀ f ∈ l, 0 ≤ f.2) →
    l.foldl (fun r f => collectNearest r f.1 f.2) ((0 : Nat), (-1 : K)) = (0, -1)
  | [], _ => rfl
  | a :: l, h => by
    rw [List.foldl_cons]
    have : collectNearest ((0 : Nat), (-1 : K)) a.1 a.2 = (0, -1) := by
      unfold collectNearest
      rw [if_neg (by have := h a (by simp); simp only; linarith)]
    rw [this]
    exact nearest_collects_nothing l (fun f hf => h f (by simp [hf]))

/-- C42, finding: `NearestNeighbour` never returns, for no tree, centre and guess. The collector starts with
the squared distance -1 and takes only particles that are closer than that. -/
theorem C42_nearest_never_returns (periodic : Bool) (L : K) (pts : List (Fin 3 → K)) (N : Nat) (x : Nat → Fin 3 → K) (t : Tree K Int)
    (h : GeoTreeOf periodic L pts N x t) (c : Fin 3 → K) (hc : periodic = true → InBox L c) (rguess : K) (fuel : Nat) :
    nearestNeighbour periodic L pts N t fuel c rguess = .diverge := by
  have key : ∀ r, treeSearch periodic L pts N t c r collectNearest (0, -1) = .ok (0, -1) := by
    intro r
    obtain ⟨l, hl, hs⟩ := search_hits h c hc r
    rw [hs, nearest_collects_nothing]
    intro f hf
    obtain ⟨p, -, hp⟩ := List.mem_filterMap.1 hf
    exact hit_nonneg hp
  have loop : ∀ (fuel : Nat) (r : K), nearestLoop periodic L pts N t c fuel r (0, -1) = .diverge := by
    intro fuel
    induction fuel with
    | zero => intro r; rfl
    | succ fuel ih =>
      intro r
      rw [nearestLoop, if_pos (by simp)]
      simp only [key, Outcome.bind_ok]
      exact ih _
  unfold nearestNeighbour
  rw [key, Outcome.bind_ok]
  exact loop _ _

/-! ## The density estimate -/

/-- What `std::nth_element(begin, begin+j, end)` by squared distance guarantees. -/
def NthElement (nth : Nat → List (Nat × K) → List (Nat × K)) : Prop :=
  ∀ j l, j < l.length → (nth j l).Perm l ∧
    ∀ piv, (nth j l)[j]? = some piv → (∀ f ∈ (nth j l).take j, f.2 ≤ piv.2) ∧ ∀ f ∈ (nth j l).drop (j + 1), piv.2 ≤ f.2

theorem sphLoop_inv [FloorRing K] {periodic : Bool} {L : K} {pts : List (Fin 3 → K)} {N : Nat} {x : Nat → Fin 3 → K} {t : Tree K Int}
    (h : GeoTreeOf periodic L pts N x t) {c : Fin 3 → K} (hc : periodic = true → InBox L c) {growth : Nat → Nat → K} {k : Nat}
    (hg : ∀ n, 0 < n → n < k → 0 ≤ growth k n) :
    ∀ (fuel : Nat) (hguess : K) (founds : List (Nat × K)), 0 ≤ hguess →
    (founds.Nodup ∧ ∀ f, f ∈ founds ↔ Located periodic L N x c f ∧ f.2 < hguess ^ 2) →
    ∀ r, sphLoop periodic L pts N t growth k c fuel hguess founds = .ok r →
    k ≤ r.1.length ∧ 0 ≤ r.2 ∧ r.1.Nodup ∧ ∀ f, f ∈ r.1 ↔ Located periodic L N x c f ∧ f.2 < r.2 ^ 2 := by
  intro fuel
  induction fuel with
  | zero => intro _ _ _ _ r hr; cases hr
  | succ fuel ih =>
    intro hguess founds h0 hf r hr
    rw [sphLoop] at hr
    by_cases hk : founds.length < k
    · rw [if_pos hk] at hr
      simp only at hr
      have h0' : 0 ≤ (if founds.length ≠ 0 then hguess * growth k founds.length else hguess * 2) := by
        split_ifs with hz
        · exact mul_nonneg h0 (hg _ (by omega) hk)
        · linarith
      obtain ⟨found', e, h1, h2⟩ := C42_located periodic L pts N x t h c hc _ h0'
      rw [e, Outcome.bind_ok] at hr
      exact ih _ _ h0' ⟨h1, h2⟩ r hr
    · rw [if_neg hk] at hr
      cases hr
      exact ⟨not_lt.1 hk, h0, hf⟩

/-- C42. When `SphDensity` returns, it has summed the kernel over exactly `k` different particles with
their squared separations; the smoothing length `h` is the largest of their distances, no other
particle is closer, and the new guess is `1.01 h`. -/
theorem C42_density [FloorRing K] (periodic : Bool) (L : K) (pts : List (Fin 3 → K)) (N : Nat) (x : Nat → Fin 3 → K) (t : Tree K Int)
    (h : GeoTreeOf periodic L pts N x t) (c : Fin 3 → K) (hc : periodic = true → InBox L c) (sqrt : K → K)
    (growth : Nat → Nat → K) (nth : Nat → List (Nat × K) → List (Nat × K)) (hn : NthElement nth) (k : Nat)
    (hg : ∀ n, 0 < n → n < k → 0 ≤ growth k n) (fuel : Nat) (hguess : K) (h0 : 0 ≤ hguess) (rho hnew : K)
    (hok : sphDensity periodic L pts N t sqrt growth nth k fuel c hguess = .ok (rho, hnew)) :
    ∃ (best : List (Nat × K)) (far : Nat × K), best.length = k ∧ best.Nodup ∧ (∀ f ∈ best, Located periodic L N x c f) ∧
      far ∈ best ∧ (∀ f ∈ best, f.2 ≤ far.2) ∧ (∀ f, Located periodic L N x c f → f ∉ best → far.2 ≤ f.2) ∧
      hnew = sqrt far.2 * (101 / 100) ∧ rho = (best.map (fun f => sphKernel sqrt (sqrt far.2) f.2)).sum := by
  unfold sphDensity at hok
  obtain ⟨found, e, h1, h2⟩ := C42_located periodic L pts N x t h c hc hguess h0
  rw [e, Outcome.bind_ok] at hok
  cases hl : sphLoop periodic L pts N t growth k c fuel hguess found with
  | ub => rw [hl] at hok; cases hok
  | abort => rw [hl] at hok; cases hok
  | diverge => rw [hl] at hok; cases hok
  | ok r =>
    rw [hl, Outcome.bind_ok] at hok
    obtain ⟨r1, r0, r2, r3⟩ := sphLoop_inv h hc hg fuel hguess found h0 ⟨h1, h2⟩ r hl
    by_cases hk0 : k = 0
    · rw [if_pos hk0] at hok; cases hok
    rw [if_neg hk0] at hok
    obtain ⟨np, nb⟩ := hn (k - 1) r.1 (by omega)
    have hlen : k - 1 < (nth (k - 1) r.1).length := by rw [np.length_eq]; omega
    obtain ⟨piv, hpiv⟩ : ∃ piv, (nth (k - 1) r.1)[k - 1]? = some piv := ⟨_, List.getElem?_eq_getElem hlen⟩
    simp only [get_some hpiv, Outcome.bind_ok] at hok
    by_cases hz : sqrt piv.2 = 0
    · rw [if_pos hz] at hok; cases hok
    rw [if_neg hz] at hok
    cases hok
    obtain ⟨b1, b2⟩ := nb piv hpiv
    have htake : (nth (k - 1) r.1).take k = (nth (k - 1) r.1).take (k - 1) ++ [piv] := by
      have := List.take_add_one (l := nth (k - 1) r.1) (i := k - 1)
      rw [hpiv, show k - 1 + 1 = k by omega] at this
      exact this
    have hdrop : (nth (k - 1) r.1).take k ++ (nth (k - 1) r.1).drop (k - 1 + 1) = nth (k - 1) r.1 := by
      rw [show k - 1 + 1 = k by omega]; exact List.take_append_drop _ _
    have hle : ∀ f ∈ (nth (k - 1) r.1).take k, f.2 ≤ piv.2 := by
      intro f hf
      rw [htake] at hf
      rcases List.mem_append.1 hf with hf | hf
      · exact b1 f hf
      · rw [List.mem_singleton] at hf; rw [hf]
    have hpm : piv ∈ (nth (k - 1) r.1).take k := by rw [htake]; simp
    refine ⟨(nth (k - 1) r.1).take k, piv, ?_, ?_, ?_, hpm, hle, ?_, rfl, rfl⟩
    · rw [List.length_take, np.length_eq]; omega
    · exact (List.take_sublist _ _).nodup (np.nodup_iff.2 r2)
    · intro f hf
      exact ((r3 f).1 (np.mem_iff.1 (List.mem_of_mem_take hf))).1
    · intro f hf hnot
      by_cases hin : f ∈ r.1
      · have := np.mem_iff.2 hin
        rw [← hdrop, List.mem_append] at this
        exact b2 f (this.resolve_left hnot)
      · have : ¬ f.2 < r.2 ^ 2 := fun hlt => hin ((r3 f).2 ⟨hf, hlt⟩)
        have hp2 := ((r3 piv).1 (np.mem_iff.1 (List.mem_of_mem_take hpm))).2
        linarith [not_lt.1 this]

/-- C42. With fewer than `k` particles in the tree `SphDensity` never returns. -/
theorem C42_density_too_few [FloorRing K] (periodic : Bool) (L : K) (pts : List (Fin 3 → K)) (N : Nat) (x : Nat → Fin 3 → K) (t : Tree K Int)
    (h : GeoTreeOf periodic L pts N x t) (c : Fin 3 → K) (hc : periodic = true → InBox L c) (sqrt : K → K)
    (growth : Nat → Nat → K) (nth : Nat → List (Nat × K) → List (Nat × K)) (k : Nat) (hfew : N < k)
    (fuel : Nat) (hguess : K) :
    sphDensity periodic L pts N t sqrt growth nth k fuel c hguess = .diverge := by
  have key : ∀ r, ∃ found, treeSearch periodic L pts N t c r collectLocated [] = .ok found ∧ found.length < k := by
    intro r
    obtain ⟨l, hl, hs⟩ := search_hits h c hc r
    refine ⟨_, hs _ _ _, ?_⟩
    have : ∀ (l acc : List (Nat × K)), l.foldl (fun r f => collectLocated r f.1 f.2) acc = acc ++ l := by
      intro l
      induction l with
      | nil => intro acc; simp
      | cons a l ih => intro acc; rw [List.foldl_cons, ih]; simp [collectLocated]
    rw [this, List.nil_append]
    refine lt_of_le_of_lt (List.length_filterMap_le _ _) ?_
    rw [hl.length_eq, List.length_range]
    exact hfew
  have loop : ∀ (fuel : Nat) (r : K) (found : List (Nat × K)), found.length < k →
      sphLoop periodic L pts N t growth k c fuel r found = .diverge := by
    intro fuel
    induction fuel with
    | zero => intro _ _ _; rfl
    | succ fuel ih =>
      intro r found hlt
      rw [sphLoop, if_pos hlt]
      simp only
      obtain ⟨found', e, h'⟩ := key (if found.length ≠ 0 then r * growth k found.length else r * 2)
      rw [e, Outcome.bind_ok]
      exact ih _ _ h'
  unfold sphDensity
  obtain ⟨found, e, h'⟩ := key hguess
  rw [e, Outcome.bind_ok, loop _ _ _ h']
  rfl

/-- C42. With at least `k` particles, a positive guess and a guess that grows by at least 10% each time
(the code: by `1.1 (k/n)^{1/3}`), the search for `k` neighbours ends; the result is a density, unless the
`k` nearest particles all sit at the centre. -/
theorem C42_density_returns [FloorRing K] (periodic : Bool) (L : K) (pts : List (Fin 3 → K)) (N : Nat) (x : Nat → Fin 3 → K) (t : Tree K Int)
    (h : GeoTreeOf periodic L pts N x t) (c : Fin 3 → K) (hc : periodic = true → InBox L c) (sqrt : K → K)
    (hsq : ∀ s, 0 ≤ s → sqrt s = 0 → s = 0)
    (growth : Nat → Nat → K) (nth : Nat → List (Nat × K) → List (Nat × K)) (hn : NthElement nth) (k : Nat) (hk : 0 < k)
    (hkN : k ≤ N) (hg : ∀ n, 0 < n → n < k → 11 / 10 ≤ growth k n) (hguess : K) (h0 : 0 < hguess) :
    ∃ fuel, (∃ r, sphDensity periodic L pts N t sqrt growth nth k fuel c hguess = .ok r) ∨
      ∃ best : List (Nat × K), best.length = k ∧ best.Nodup ∧ ∀ f ∈ best, Located periodic L N x c f ∧ f.2 = 0 := by
  have : Archimedean K := FloorRing.archimedean K
  have hg' : ∀ n, 0 < n → n < k → 0 ≤ growth k n := fun n a b => le_trans (by norm_num) (hg n a b)
  have hsep : ∀ p < N, ∃ s, 0 ≤ s ∧ Located periodic L N x c (p, s) := by
    intro p hp
    refine ⟨treeDist2 periodic L (x p) c, ?_, hp, dist_separation (fun hper => ⟨(h.box hper).1, (h.box hper).2 p hp, hc hper⟩)⟩
    unfold treeDist2
    nlinarith [mul_self_nonneg (treeOffset periodic L (x p) c 0), mul_self_nonneg (treeOffset periodic L (x p) c 1),
      mul_self_nonneg (treeOffset periodic L (x p) c 2)]
  choose! s hs0 hs using hsep
  have huniq : ∀ f, Located periodic L N x c f → f.2 = s f.1 := by
    intro f hf
    have h1 := hf.2
    have h2 := (hs f.1 hf.1).2
    unfold Separation at h1 h2
    cases periodic with
    | false => simp only [Bool.false_eq_true, if_false] at h1 h2; rw [h1, h2]
    | true =>
      simp only [if_true] at h1 h2
      obtain ⟨⟨k1, e1⟩, m1⟩ := h1
      obtain ⟨⟨k2, e2⟩, m2⟩ := h2
      apply le_antisymm
      · rw [e2]; exact m1 k2
      · rw [e1]; exact m2 k1
  -- a radius beyond which everything is found
  obtain ⟨R, hR1, hR⟩ : ∃ R : K, 1 ≤ R ∧ ∀ p < N, s p < R ^ 2 := by
    have : ∀ n ≤ N, ∃ R : K, 1 ≤ R ∧ ∀ p < n, s p < R ^ 2 := by
      intro n
      induction n with
      | zero => intro _; exact ⟨1, le_rfl, by simp⟩
      | succ n ih =>
        intro hn
        obtain ⟨R, a, b⟩ := ih (by omega)
        have hsn := hs0 n (by omega)
        refine ⟨R + s n, by linarith, fun p hp => ?_⟩
        rcases Nat.lt_succ_iff_lt_or_eq.1 hp with hp | rfl
        · have := b p hp
          nlinarith
        · nlinarith
    exact this N le_rfl
  have full : ∀ (r : K) (found : List (Nat × K)), R ≤ r → (found.Nodup ∧ ∀ f, f ∈ found ↔ Located periodic L N x c f ∧ f.2 < r ^ 2) →
      N ≤ found.length := by
    intro r found hr hf
    have hsub : ((List.range N).map (fun p => (p, s p))) ⊆ found := by
      intro f hfm
      obtain ⟨p, hp, rfl⟩ := List.mem_map.1 hfm
      have hp := List.mem_range.1 hp
      refine (hf.2 _).2 ⟨hs p hp, ?_⟩
      have := hR p hp
      simp only
      nlinarith
    have hnd : ((List.range N).map (fun p => (p, s p))).Nodup := by
      refine List.nodup_range.map (fun a b hab => ?_)
      exact congrArg Prod.fst hab
    have := (List.subperm_of_subset hnd hsub).length_le
    simpa using this
  have loop : ∀ (n : Nat) (r : K) (found : List (Nat × K)), 0 < r → R ≤ r * (11 / 10) ^ n →
      (found.Nodup ∧ ∀ f, f ∈ found ↔ Located periodic L N x c f ∧ f.2 < r ^ 2) →
      ∃ res, sphLoop periodic L pts N t growth k c (n + 1) r found = .ok res := by
    intro n
    induction n with
    | zero =>
      intro r found hr hle hf
      have := full r found (by simpa using hle) hf
      rw [sphLoop, if_neg (by omega)]
      exact ⟨_, rfl⟩
    | succ n ih =>
      intro r found hr hle hf
      rw [sphLoop]
      by_cases hlt : found.length < k
      · rw [if_pos hlt]
        simp only
        have hgrow : r * (11 / 10) ≤ (if found.length ≠ 0 then r * growth k found.length else r * 2) := by
          split_ifs with hz
          · exact mul_le_mul_of_nonneg_left (hg _ (by omega) hlt) hr.le
          · linarith
        have hpos : 0 < (if found.length ≠ 0 then r * growth k found.length else r * 2) := lt_of_lt_of_le (by positivity) hgrow
        obtain ⟨found', e, h1, h2⟩ := C42_located periodic L pts N x t h c hc _ hpos.le
        rw [e, Outcome.bind_ok]
        refine ih _ _ hpos ?_ ⟨h1, h2⟩
        refine hle.trans ?_
        rw [pow_succ]
        have hp : (0 : K) ≤ (11 / 10) ^ n := by positivity
        nlinarith [mul_le_mul_of_nonneg_right hgrow hp]
      · rw [if_neg hlt]; exact ⟨_, rfl⟩
  obtain ⟨n, hnn⟩ := pow_unbounded_of_one_lt (R / hguess) (show (1 : K) < 11 / 10 by norm_num)
  obtain ⟨found, e, h1, h2⟩ := C42_located periodic L pts N x t h c hc hguess h0.le
  obtain ⟨res, hres⟩ := loop n hguess found h0 (by rw [div_lt_iff₀ h0] at hnn; linarith) ⟨h1, h2⟩
  refine ⟨n + 1, ?_⟩
  obtain ⟨r1, r0, r2, r3⟩ := sphLoop_inv h hc hg' (n + 1) hguess found h0.le ⟨h1, h2⟩ res hres
  obtain ⟨np, nb⟩ := hn (k - 1) res.1 (by omega)
  have hlen : k - 1 < (nth (k - 1) res.1).length := by rw [np.length_eq]; omega
  obtain ⟨piv, hpiv⟩ : ∃ piv, (nth (k - 1) res.1)[k - 1]? = some piv := ⟨_, List.getElem?_eq_getElem hlen⟩
  obtain ⟨b1, b2⟩ := nb piv hpiv
  by_cases hz : sqrt piv.2 = 0
  · right
    have hpl := ((r3 piv).1 (np.mem_iff.1 (List.mem_of_getElem? hpiv))).1
    have hp0 : piv.2 = 0 := hsq _ (by rw [huniq piv hpl]; exact hs0 _ hpl.1) hz
    refine ⟨(nth (k - 1) res.1).take k, ?_, (List.take_sublist _ _).nodup (np.nodup_iff.2 r2), fun f hf => ?_⟩
    · rw [List.length_take, np.length_eq]; omega
    · have hfl := ((r3 f).1 (np.mem_iff.1 (List.mem_of_mem_take hf))).1
      refine ⟨hfl, le_antisymm ?_ (by rw [huniq f hfl]; exact hs0 _ hfl.1)⟩
      have htake : (nth (k - 1) res.1).take k = (nth (k - 1) res.1).take (k - 1) ++ [piv] := by
        have := List.take_add_one (l := nth (k - 1) res.1) (i := k - 1)
        rw [hpiv, show k - 1 + 1 = k by omega] at this
        exact this
      rw [htake] at hf
      rcases List.mem_append.1 hf with hf | hf
      · rw [← hp0]; exact b1 f hf
      · rw [List.mem_singleton] at hf; rw [hf, hp0]
  · left
    unfold sphDensity
    rw [e, Outcome.bind_ok, hres, Outcome.bind_ok, if_neg (by omega)]
    simp only [get_some hpiv, Outcome.bind_ok]
    rw [if_neg hz]
    exact ⟨_, rfl⟩

end Field

/-! ## Non-vacuity -/

/-- Does a build return? -/
def returns {A : Type} : Outcome A → Bool
  | .ok _ => true
  | _ => false

/-- The hypothesis of the search theorems holds for the particles of `treePts` in the periodic box of size 10. -/
example : ∃ t, GeoTreeOf true 10 treePts 5 treePos t := by
  rcases C41_geo_safe (1 : ℚ) (1/2) (by norm_num) (fun n => n + 2) 20 [7] treePts 0 5 treePos treeContent with h | ⟨t, h⟩
  · have : returns (buildTree geoRule (1 : ℚ) (1/2) (fun n => n + 2) 20 [7] treePts 0) = true := by decide +kernel
    rw [h] at this; cases this
  · refine ⟨t, ⟨1, 1/2, _, _, _, 0, by norm_num, treeContent, h⟩, fun _ => ⟨by norm_num, fun p hp => ?_⟩⟩
    intro d
    interval_cases p <;> fin_cases d <;> constructor <;> norm_num [treePos]

/-- A periodic search across the corner of the box: from `(19/2,19/2,19/2)` the coincident particles 0 and 2 are
found through the faces, the particles 3 and 4 directly; particle 1 is too far. -/
example : (do let t ← buildTree geoRule 1 (1/2) (fun n => n + 2) 20 [7] treePts 0
              treeSearch true 10 treePts 5 t ![19/2, 19/2, 19/2] (14/5) collectLocated []) =
    .ok [(0, 27/4), (2, 27/4), (3, 27/4), (4, 11/2)] := by decide +kernel

end HBT.Props
