import Verif.Lemmas.LinkedFof
import Verif.Props.LinkedList
/-!
# C39: parallel linked lists; C40: friends-of-friends groups
-/
set_option linter.unusedSectionVars false
namespace HBT.Props
open HBT.Model HBT.Spec HBT.LL
section Field
variable {K : Type} [Field K] [LinearOrder K] [IsStrictOrderedRing K] [FloorRing K]

/-- C39, sampling. With `T` threads and `n` particles, both sampling schemes give every particle to
exactly one place of exactly one thread, and every place of a thread is a particle. -/
theorem C39_samples (T n : Nat) (hT : 0 < T) (sample : Nat → Nat → Nat → Outcome PosSample)
    (hsample : sample = latticeSample ∨ sample = blockSample) :
    ∃ s : Nat → PosSample, (∀ t, t < T → sample t T n = .ok (s t)) ∧
      (∀ t i, t < T → i < (s t).np → (s t).restore i < n) ∧
      ∀ p, p < n → ∃! ti : Nat × Nat, ti.1 < T ∧ ti.2 < (s ti.1).np ∧ (s ti.1).restore ti.2 = p := by
  obtain ⟨s, hs, hsp⟩ : ∃ s : Nat → PosSample, (∀ t, t < T → sample t T n = .ok (s t)) ∧ Split s T n := by
    rcases hsample with rfl | rfl
    · obtain ⟨s, h1, h2⟩ := lattice_split T n hT
      exact ⟨s, fun t _ => h1 t, h2⟩
    · exact block_split T n hT
  refine ⟨s, hs, hsp.lt, fun p hp => ?_⟩
  obtain ⟨t, i, ht, hi, he⟩ := hsp.cover p hp
  refine ⟨(t, i), ⟨ht, hi, he⟩, ?_⟩
  rintro ⟨t', i'⟩ ⟨ht', hi', he'⟩
  obtain ⟨e1, e2⟩ := hsp.inj t' t i' i ht' ht hi' hi (he'.trans he.symm)
  rw [e1, e2]

/-- The three searches, as one argument. -/
inductive Query (K : Type) where
  | sphere (r : K)
  | shell (rmin rmax : K)
  | cylinder (rz rp : K)

/-- Run a query on one list. -/
def Query.run (q : Query K) (cfgBox : K) (c : Fin 3 → K) (ll : LinkedCells K) : Outcome (List (Nat × K)) :=
  match q with
  | .sphere r => searchSphere ll cfgBox r c
  | .shell rmin rmax => searchShell ll cfgBox rmin rmax c
  | .cylinder rz rp => searchCylinder ll cfgBox rz rp c

/-- Radii are not negative. -/
def Query.valid (q : Query K) : Prop :=
  match q with
  | .sphere r => 0 ≤ r
  | .shell _ rmax => 0 ≤ rmax
  | .cylinder _ rp => 0 ≤ rp

/-- The searched region leaves one cell of each side of the box free. -/
def Query.fits (q : Query K) (L : K) (ndiv : Nat) : Prop :=
  match q with
  | .sphere r => 2 * r ≤ L - L / ndiv
  | .shell _ rmax => 2 * rmax ≤ L - L / ndiv
  | .cylinder rz rp => 2 * rp ≤ L - L / ndiv ∧ 2 * rz ≤ L - L / ndiv

/-- What a query reports, for lists over the same grid. -/
theorem query_ok (q : Query K) (hq : q.valid) (ndiv : Nat) (L : K) (periodic : Bool) (hn : 0 < ndiv)
    (hL : 0 < L) (c : Fin 3 → K) (hc : periodic = true → InBox L c) :
    ∃ Q : (Fin 3 → K) → K → Prop, ∀ ll : LinkedCells K, Complete ll → ll.grid = boxGrid ndiv L periodic →
      (periodic = true → ∀ x ∈ ll.pts, InBox L x) →
      ∃ found, q.run L c ll = .ok found ∧ (∀ p r, (p, r) ∈ found ↔ ∃ x, ll.pts[p]? = some x ∧ Q x r) ∧
        ((periodic = true → q.fits L ndiv) → (found.map Prod.fst).Nodup) := by
  have hgo := boxGrid_ok ndiv L periodic hn hL
  cases q with
  | sphere r =>
    refine ⟨fun x s => s = sep2 periodic L x c ∧ s < r ^ 2, fun ll hcomp hg hin => ?_⟩
    have := sphere_found ll hcomp (by rw [hg]; exact hgo) L r hq c
      (fun _ => by rw [hg]; exact ⟨rfl, hL⟩) (by rw [hg]; exact hin) (by rw [hg]; exact hc)
    rw [hg] at this
    exact this
  | shell rmin rmax =>
    rcases le_or_gt rmin 0 with h0 | h0
    · refine ⟨fun x s => s = sep2 periodic L x c ∧ s < rmax ^ 2, fun ll hcomp hg hin => ?_⟩
      have := sphere_found ll hcomp (by rw [hg]; exact hgo) L rmax hq c
        (fun _ => by rw [hg]; exact ⟨rfl, hL⟩) (by rw [hg]; exact hin) (by rw [hg]; exact hc)
      rw [hg] at this
      have e : (Query.shell rmin rmax).run L c ll = searchSphere ll L rmax c := by
        rw [Query.run, searchShell, if_pos h0]
      rw [e]
      exact this
    · refine ⟨fun x s => s = sep2 periodic L x c ∧ s < rmax ^ 2 ∧ rmin ^ 2 < s, fun ll hcomp hg hin => ?_⟩
      have := shell_found ll hcomp (by rw [hg]; exact hgo) L rmin rmax h0 hq c
        (fun _ => by rw [hg]; exact ⟨rfl, hL⟩) (by rw [hg]; exact hin) (by rw [hg]; exact hc)
      rw [hg] at this
      exact this
  | cylinder rz rp =>
    refine ⟨fun x s => s = offsetTo periodic L x c 0 ^ 2 + offsetTo periodic L x c 1 ^ 2 ∧ s < rp ^ 2 ∧
        |offsetTo periodic L x c 2| ≤ rz, fun ll hcomp hg hin => ?_⟩
    have := cylinder_found ll hcomp (by rw [hg]; exact hgo) L rz rp hq c
      (fun _ => by rw [hg]; exact ⟨rfl, hL⟩) (by rw [hg]; exact hin) (by rw [hg]; exact hc)
    rw [hg] at this
    exact this

theorem sameFinds {a b : List (Nat × K)} (ha : (a.map Prod.fst).Nodup) (hb : (b.map Prod.fst).Nodup)
    (h : ∀ p r, (p, r) ∈ a ↔ (p, r) ∈ b) : a.Perm b := by
  rw [List.perm_ext_iff_of_nodup (List.Nodup.of_map _ ha) (List.Nodup.of_map _ hb)]
  rintro ⟨p, r⟩
  exact h p r

/-- C39, one list per thread. For every number of threads, and every order in which the threads hand
over their finds, a search of the per-thread lists reports the same particles with the same
distances as a search of the serial list; the reports are equal up to order if the searched region
leaves one cell of a periodic box free. -/
theorem C39_search (T ndiv : Nat) (hT : 0 < T) (pts : List (Fin 3 → K)) (L : K) (periodic : Bool)
    (hn : 0 < ndiv) (hsize : ndiv ^ 3 < 2 ^ 31) (hL : 0 < L) (c : Fin 3 → K)
    (hin : periodic = true → InBox L c ∧ ∀ x ∈ pts, InBox L x) (q : Query K) (hq : q.valid)
    (order : List Nat) (horder : order.Perm (List.range T)) :
    ∃ ll lls serial parallel, buildCells ndiv pts L periodic = .ok ll ∧ q.run L c ll = .ok serial ∧
      buildPara T ndiv pts L periodic = .ok lls ∧ searchPara (q.run L c) lls order = .ok parallel ∧
      (∀ p r, (p, r) ∈ parallel ↔ (p, r) ∈ serial) ∧
      ((periodic = true → q.fits L ndiv) → parallel.Perm serial) := by
  obtain ⟨Q, hQ⟩ := query_ok q hq ndiv L periodic hn hL c (fun h => (hin h).1)
  obtain ⟨ll, e, hcomp, hg, hp⟩ := build_box ndiv pts L periodic hn hsize hL
  obtain ⟨serial, e1, h1, n1⟩ := hQ ll hcomp hg (by rw [hp]; exact fun h => (hin h).2)
  obtain ⟨s, hs, hsp⟩ := lattice_split T pts.length hT
  obtain ⟨tl, hb, hth⟩ := buildThreads_ok latticeSample T ndiv pts L periodic hn hsize hL s (fun t _ => hs t) hsp
  obtain ⟨par, e2, h2, n2⟩ := searchPara_ok hth (q.run L c) Q (periodic = true → q.fits L ndiv)
    (fun t ht => hQ (tl t) (hth.complete t ht) (hth.grid t ht) (fun h x hx => by
      obtain ⟨i, hi⟩ := List.mem_iff_getElem?.1 hx
      exact (hin h).2 x (List.mem_of_getElem? (hth.mem t i ht x hi).2))) order horder
  refine ⟨ll, _, serial, par, e, e1, hb, e2, ?_, ?_⟩
  · intro p r
    rw [h2, h1, hp]
  · intro hf
    refine sameFinds (n2 hf) (n1 hf) (fun p r => ?_)
    rw [h2, h1, hp]

/-- C39, merged list. For every number of threads, and every order in which the cells are merged, the
list built in parallel and merged has in every cell the same particles as the serial list, and every
search of it reports the same particles with the same distances. -/
theorem C39_merged (T ndiv : Nat) (hT : 0 < T) (pts : List (Fin 3 → K)) (L : K) (periodic : Bool)
    (hn : 0 < ndiv) (hsize : ndiv ^ 3 < 2 ^ 31) (hL : 0 < L) (order : List Nat)
    (horder : order.Perm (List.range (ndiv ^ 3))) :
    ∃ ser par, buildCells ndiv pts L periodic = .ok ser ∧
      parallelBuild T ndiv pts L periodic order = .ok par ∧
      (∀ i, i < ndiv ^ 3 → ∃ a b, chainOf ser (i : Nat) = .ok a ∧ chainOf par (i : Nat) = .ok b ∧ b.Perm a) ∧
      ∀ (q : Query K) (c : Fin 3 → K), q.valid →
        (periodic = true → InBox L c ∧ ∀ x ∈ pts, InBox L x) →
        ∃ a b, q.run L c ser = .ok a ∧ q.run L c par = .ok b ∧ (∀ p r, (p, r) ∈ b ↔ (p, r) ∈ a) ∧
          ((periodic = true → q.fits L ndiv) → b.Perm a) := by
  have e3 : ndiv ^ 3 = ndiv * ndiv * ndiv := by ring
  obtain ⟨ser, e, hcomp, hg, hp⟩ := build_box ndiv pts L periodic hn hsize hL
  obtain ⟨par, e', hcomp', hg', hp'⟩ := parallelBuild_ok T ndiv hT pts L periodic hn hsize hL order horder
  refine ⟨ser, par, e, e', ?_, ?_⟩
  · intro i hi
    rw [e3] at hi
    obtain ⟨a, ha, na, ma⟩ := chainOf_ok ser hcomp (i : Nat) (by omega) (by rw [hg]; simp only [boxGrid]; omega)
    obtain ⟨b, hb, nb, mb⟩ := chainOf_ok par hcomp' (i : Nat) (by omega) (by rw [hg']; simp only [boxGrid]; omega)
    refine ⟨a, b, ha, hb, ?_⟩
    rw [List.perm_ext_iff_of_nodup nb na]
    intro p
    rw [ma, mb, hg, hg', hp, hp']
  · intro q c hq hin
    obtain ⟨Q, hQ⟩ := query_ok q hq ndiv L periodic hn hL c (fun h => (hin h).1)
    obtain ⟨a, ea, ha, na⟩ := hQ ser hcomp hg (by rw [hp]; exact fun h => (hin h).2)
    obtain ⟨b, eb, hb, nb⟩ := hQ par hcomp' hg' (by rw [hp']; exact fun h => (hin h).2)
    refine ⟨a, b, ea, eb, ?_, ?_⟩
    · intro p r
      rw [ha, hb, hp, hp']
    · intro hf
      refine sameFinds (nb hf) (na hf) (fun p r => ?_)
      rw [ha, hb, hp, hp']

/-! ## C40 -/

theorem sep2_symm (periodic : Bool) (L : K) (hL : 0 < L) (x y : Fin 3 → K) :
    sep2 periodic L x y = sep2 periodic L y x := by
  rw [← sep2_eq, ← sep2_eq, C04_distance_symm periodic L hL]

theorem adj_iff (ll : LinkedCells K) (L b : K) (hb : 0 ≤ b) (hL : 0 < L)
    (hin : ll.grid.periodic = true → ∀ x ∈ ll.pts, InBox L x) (p q : Nat) :
    Adj ll L b p q ↔ LinkedPair ll.grid.periodic L b ll.pts p q := by
  unfold Adj LinkedPair
  constructor
  · rintro ⟨x, y, hx, hy, s, hs⟩
    refine ⟨x, y, hx, hy, ?_⟩
    have hxb := fun h => hin h x (List.mem_of_getElem? hx)
    have hyb := fun h => hin h y (List.mem_of_getElem? hy)
    obtain ⟨hs1, hs2⟩ := (sphereTest_iff _ L b hb x y s).1 hs
    rw [sep2_symm _ L hL] at hs1
    exact (closer_iff _ L b x y s ((sep2_separation _ L hL x y hxb hyb s).2 hs1)).2 hs2
  · rintro ⟨x, y, hx, hy, hc⟩
    refine ⟨x, y, hx, hy, sep2 ll.grid.periodic L x y, ?_⟩
    have hxb := fun h => hin h x (List.mem_of_getElem? hx)
    have hyb := fun h => hin h y (List.mem_of_getElem? hy)
    rw [sphereTest_iff _ L b hb]
    exact ⟨sep2_symm _ L hL x y, (closer_iff _ L b x y _ ((sep2_separation _ L hL x y hxb hyb _).2 rfl)).1 hc⟩

theorem adj_symm (ll : LinkedCells K) (L b : K) (hb : 0 ≤ b) (hL : 0 < L) (p q : Nat) (h : Adj ll L b p q) :
    Adj ll L b q p := by
  obtain ⟨x, y, hx, hy, s, hs⟩ := h
  obtain ⟨hs1, hs2⟩ := (sphereTest_iff _ L b hb x y s).1 hs
  exact ⟨y, x, hy, hx, s, (sphereTest_iff _ L b hb y x s).2 ⟨by rw [hs1, sep2_symm _ L hL], hs2⟩⟩

/-- C40. For every snapshot of at least 100 particles (or none), every linking length, grid, number
of threads and order of the parallel merge, `LinkedlistLinkGroup` terminates, and:
every particle gets a label `0 ≤ label < number of groups`; two particles have the same label exactly if
a chain of pairs closer than the linking length joins them; the lengths appended to `GrpLen` are
the numbers of particles with each label, all positive. -/
theorem C40_components (T ndiv : Nat) (hT : 0 < T) (pts : List (Fin 3 → K)) (L : K) (periodic : Bool)
    (hn : 0 < ndiv) (hsize : ndiv ^ 3 < 2 ^ 31) (hL : 0 < L) (order : List Nat)
    (horder : order.Perm (List.range (ndiv ^ 3))) (b : K) (hb : 0 ≤ b)
    (hin : periodic = true → ∀ x ∈ pts, InBox L x) (hsnap : pts = [] ∨ 100 ≤ pts.length) (lens0 : List Nat) :
    ∃ lens tags, linkGroups T ndiv pts L periodic order b lens0 = .ok (lens0 ++ lens, tags) ∧
      tags.length = pts.length ∧
      (∀ p, p < pts.length → ∃ g, g < lens.length ∧ tags[p]? = some (g : Int)) ∧
      (∀ p q, p < pts.length → q < pts.length → (tags[p]? = tags[q]? ↔ Joined periodic L b pts p q)) ∧
      ∀ g, g < lens.length → lens[g]? = some ((List.range pts.length).filter
        fun p => decide (tags[p]? = some (g : Int))).length ∧ lens[g]? ≠ some 0 := by
  obtain ⟨ll, e, hcomp, hg, hp⟩ := parallelBuild_ok T ndiv hT pts L periodic hn hsize hL order horder
  have hper : ll.grid.periodic = periodic := by rw [hg]; rfl
  have hok : FofOK ll L b := ⟨hcomp, by rw [hg]; exact boxGrid_ok ndiv L periodic hn hL, hb,
    fun _ => by rw [hg]; exact ⟨rfl, hL⟩, by rw [hper, hp]; exact hin⟩
  have hadj : ∀ p q, Adj ll L b p q ↔ LinkedPair periodic L b pts p q := by
    intro p q
    have := adj_iff ll L b hb hL hok.inBox p q
    rw [hper, hp] at this
    exact this
  have hadj' : Adj ll L b = LinkedPair periodic L b pts := by
    funext p q; exact propext (hadj p q)
  have hinv0 : LinkInv ll L b lens0 (LinkState.mk (List.replicate pts.length (-1)) lens0 0 (pts.length / 100)) := by
    have hneg : ∀ (p : Nat) (t : Int), (List.replicate pts.length (-1 : Int))[p]? = some t → t = -1 := by
      intro p t h
      have := List.mem_of_getElem? h
      exact (List.mem_replicate.1 this).2
    refine ⟨by simp [hp], ⟨[], by simp, rfl, by simp⟩, ?_, ?_, ?_⟩
    · intro p t h
      have := hneg p t h
      simp only; omega
    · rintro p q ⟨t, h, h0⟩
      have := hneg p t h
      omega
    · intro p q t u h h0
      have := hneg p t h
      omega
  have hloop : ∃ st', linkLoop ll L b (pts.length / 100) (List.range pts.length)
      (LinkState.mk (List.replicate pts.length (-1)) lens0 0 (pts.length / 100)) = .ok st' ∧
      LinkInv ll L b lens0 st' ∧ ∀ i ∈ List.range pts.length, ∃ t, st'.tags[i]? = some t ∧ 0 ≤ t := by
    rcases hsnap with h0 | h100
    · subst h0
      exact ⟨_, rfl, hinv0, by simp⟩
    · obtain ⟨st', h1, h2, h3, _⟩ := linkLoop_ok ll L b hok (adj_symm ll L b hb hL) (pts.length / 100) (by omega)
        lens0 (List.range pts.length) _ (fun i hi => by rw [hp]; exact List.mem_range.1 hi) hinv0
      exact ⟨st', h1, h2, h3⟩
  obtain ⟨st', e2, hinv, hall⟩ := hloop
  obtain ⟨new, hl1, hl2, hl3⟩ := hinv.groups
  refine ⟨new, st'.tags, ?_, by rw [hinv.len, hp], ?_, ?_, ?_⟩
  · rw [linkGroups, e, Outcome.bind_ok]
    simp only
    rw [e2, Outcome.bind_ok, hl1]
  · intro p hpl
    obtain ⟨t, ht, h0⟩ := hall p (List.mem_range.2 hpl)
    have := hinv.bound p t ht
    exact ⟨t.toNat, by omega, by rw [ht]; congr 1; omega⟩
  · intro p q hpl hql
    obtain ⟨t, ht, h0⟩ := hall p (List.mem_range.2 hpl)
    obtain ⟨u, hu, h0'⟩ := hall q (List.mem_range.2 hql)
    have := hinv.same p q t u ht h0 hu h0'
    rw [hadj'] at this
    rw [ht, hu, Option.some.injEq]
    exact this
  · intro g hgl
    obtain ⟨h1, h2⟩ := hl3 g (by omega)
    rw [hp] at h1 h2
    refine ⟨h1, ?_⟩
    rw [h1]
    intro h
    simp only [Option.some.injEq] at h
    omega

/-- C40, finding: with 1 to 99 particles `LinkedlistLinkGroup` divides by zero in its progress output,
whatever the particles and the linking length. -/
theorem C40_small_snapshot_finding (T ndiv : Nat) (hT : 0 < T) (pts : List (Fin 3 → K)) (L : K)
    (periodic : Bool) (hn : 0 < ndiv) (hsize : ndiv ^ 3 < 2 ^ 31) (hL : 0 < L) (order : List Nat)
    (horder : order.Perm (List.range (ndiv ^ 3))) (b : K) (lens0 : List Nat)
    (h1 : 0 < pts.length) (h2 : pts.length < 100) :
    linkGroups T ndiv pts L periodic order b lens0 = .ub := by
  obtain ⟨ll, e, _, _, _⟩ := parallelBuild_ok T ndiv hT pts L periodic hn hsize hL order horder
  rw [linkGroups, e, Outcome.bind_ok]
  have h0 : pts.length / 100 = 0 := by omega
  simp only [h0]
  obtain ⟨m, hm⟩ : ∃ m, pts.length = m + 1 := ⟨pts.length - 1, by omega⟩
  rw [hm, List.range_succ_eq_map, linkLoop]
  simp [Outcome.get, List.replicate_succ]

end Field

/-! ### Examples -/

/-- Three threads over seven particles. -/
example : (do let a ← latticeSample 0 3 7; let b ← latticeSample 1 3 7; let c ← latticeSample 2 3 7
              pure ([a, b, c].map fun s : PosSample => (List.range s.np).map s.restore)) =
    .ok [[0, 3, 6], [1, 4], [2, 5]] := by decide +kernel
example : (do let a ← blockSample 0 3 7; let b ← blockSample 1 3 7; let c ← blockSample 2 3 7
              pure ([a, b, c].map fun s : PosSample => (List.range s.np).map s.restore)) =
    .ok [[0, 1, 2], [3, 4], [5, 6]] := by decide +kernel

/-- Two threads, handing over in the order 1, 0. -/
example : (do let lls ← buildPara 2 8 boxPts 10 true
              searchPara (fun ll => searchSphere ll 10 3 ![1/2, 1/2, 1/2]) lls [1, 0]) =
    .ok [(3, 27/4), (1, 11/4), (0, 0), (4, 1)] := by decide +kernel

/-- A merged list: cells merged in descending order; with one thread the chain of cell 0 comes in
another order than in the serial list. -/
example : (do let ll ← parallelBuild 1 2 boxPts 10 true [7, 6, 5, 4, 3, 2, 1, 0]; chainOf ll 0) =
    .ok [0, 4] := by decide +kernel
example : (do let ll ← buildCells 2 boxPts 10 true; chainOf ll 0) = .ok [4, 0] := by decide +kernel
example : (do let ll ← parallelBuild 2 2 boxPts 10 true [7, 6, 5, 4, 3, 2, 1, 0]; chainOf ll 0) =
    .ok [4, 0] := by decide +kernel

/-- 100 particles on a line, every 10th gap wider than the linking length: ten groups of ten. -/
def linePts : List (Fin 3 → ℚ) := (List.range 100).map fun i => ![(i + 2 * (i / 10 : Nat) : ℕ), 1, 1]

example : ∀ x ∈ linePts, InBox 200 x := by
  intro x hx
  simp only [linePts, List.mem_map, List.mem_range] at hx
  obtain ⟨i, hi, rfl⟩ := hx
  have h : i + 2 * (i / 10) < 200 := by omega
  have h' : ((i + 2 * (i / 10 : Nat) : ℕ) : ℚ) < 200 := by exact_mod_cast h
  intro d
  fin_cases d
  · exact ⟨by simp only [Fin.zero_eta, Matrix.cons_val_zero]; positivity, by simpa using h'⟩
  · norm_num
  · norm_num

example : (do let r ← linkGroups 2 2 linePts 200 true (List.range 8) (3/2) []; pure r.1) =
    .ok (List.replicate 10 10) := by decide +kernel

end HBT.Props
