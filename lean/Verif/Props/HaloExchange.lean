import Verif.Lemmas.HaloExchange
import Verif.Props.MyMath
/-!
# C19: moving haloes between processes
-/
namespace HBT.Props
open HBT HBT.Model HBT.Spec
variable {S α : Type}

/-- Once every halo has a target rank `t`, the exchange delivers it there. -/
theorem distributeTo_ok {P : Nat} (chunksize : Nat) (hc : 0 < chunksize)
    (hP : P * (chunksize + 1) < 2 ^ 31) (fill : α)
    {sort : List (Int × Nat) → List (Int × Nat)} (hsort : SortBySpec Prod.fst sort)
    (halos out : Fin P → List (HaloRec S α)) (t : HaloRec S α → Fin P) :
    ∃ new : Fin P → List (HaloRec S α),
      distributeTo chunksize fill sort (fun s => (halos s,
        ((halos s).zipIdx 0).map (fun p => (((t p.1).val : Int), p.2)))) out = .ok (fun r => out r ++ new r) ∧
      ∀ r : Fin P, (new r).Perm ((List.ofFn halos).flatten.filter (fun h => decide (t h = r))) := by
  classical
  let target : Fin P → List (Int × Nat) := fun s =>
    sort (((halos s).zipIdx 0).map (fun p => (((t p.1).val : Int), p.2)))
  have hre := fun s => reorder_perm (fun h => ((t h).val : Int)) (halos s) (target s) (hsort.perm _)
  choose L hL1 hL2 hL3 using hre
  have hLs : ∀ s, (L s).Pairwise (fun x y => (t x).val ≤ (t y).val) := by
    intro s
    have h1 : ((target s).map Prod.fst).Pairwise (· ≤ ·) := by
      rw [List.pairwise_map]; exact hsort.sorted _
    rw [← hL3 s, List.pairwise_map] at h1
    exact h1.imp (fun h => by omega)
  let pick : Fin P → Fin P → List (HaloRec S α) := fun s r => (L s).filter (fun h => decide (t h = r))
  have hcount : ∀ s, tally P ((target s).map (fun x => (x.1, 1))) (fun _ => 0)
      = .ok (fun r => (pick s r).length) := by
    intro s
    have e : (target s).map (fun x => (x.1, 1)) = (L s).map (fun h => (((t h).val : Int), 1)) := by
      have h1 := congrArg (List.map (fun k : Int => (k, 1))) (hL3 s)
      rw [List.map_map, List.map_map] at h1
      exact h1.symm
    rw [e, tally_ok t (fun _ => 1)]
    congr 1
    funext r
    simp [pick]
  have hpcount : ∀ s, tally P (List.zipWith (fun x h => (x.1, h.particles.length)) (target s) (L s)) (fun _ => 0)
      = .ok (fun r => ((pick s r).map (fun h => h.particles.length)).sum) := by
    intro s
    rw [zipWith_target t (fun h => h.particles.length) _ _ (hL3 s), tally_ok t]
    congr 1
    funext r
    simp [pick]
  have hblock : ∀ {γ : Type} (f : HaloRec S α → γ) (s r : Fin P),
      blockFrom (fun s => (L s).map f) (fun s r => (pick s r).length) s r = .ok ((pick s r).map f) := by
    intro γ f s r
    unfold blockFrom
    rw [disps_ok, Outcome.bind_ok]
    exact sorted_slice t (L s) (hLs s) r f
  have hblock' : ∀ s r, blockFrom L (fun s r => (pick s r).length) s r = .ok (pick s r) := by
    intro s r
    have := hblock id s r
    simpa using this
  have hflen : ∀ s r, ((pick s r).map (fun h => h.particles.length)).sum
      = (((pick s r).map HaloRec.particles).flatten).length := by
    intro s r; rw [List.length_flatten, List.map_map]; rfl
  refine ⟨fun r => (List.ofFn (fun s => pick s r)).flatten, ?_, ?_⟩
  · unfold distributeTo
    simp only
    rw [allRanks_ok _ L (fun s => hL1 s), Outcome.bind_ok, allRanks_ok _ _ hcount, Outcome.bind_ok,
      allRanks_ok _ (fun r => fun s => (pick s r).map HaloRec.shell)
        (fun r => allRanks_ok _ _ (fun s => hblock HaloRec.shell s r)), Outcome.bind_ok,
      allRanks_ok _ (fun r => fun s => (pick s r).map (fun h => h.particles.length))
        (fun r => allRanks_ok _ _ (fun s => hblock (fun h => h.particles.length) s r)), Outcome.bind_ok,
      allRanks_ok _ pick (fun s => allRanks_ok _ _ (fun r => hblock' s r)), Outcome.bind_ok,
      allRanks_ok _ _ hpcount, Outcome.bind_ok,
      C11_alltoall fill chunksize hc hP _ _ (fun s r => by rw [hflen]), Outcome.bind_ok,
      allRanks_ok _ (fun r => fun s => (pick s r).map HaloRec.particles) (fun r => allRanks_ok _ _ (fun s => by
        beta_reduce
        rw [hflen, List.take_length]
        have := fillHalos_ok ((pick s r).map HaloRec.particles)
        rw [List.map_map] at this
        exact this)), Outcome.bind_ok]
    congr 1
    funext r
    congr 2
    congr 1
    funext s
    exact zipWith_mk _
  · intro r
    refine (flatten_perm _ _ (fun s => (hL2 s).filter (fun h => decide (t h = r)))).trans (List.Perm.of_eq ?_)
    rw [List.filter_flatten, List.map_ofFn]
    rfl

/-- C19. For every number of ranks and every distribution of haloes over them such that every centre
maps to a rank: the exchange terminates without error; afterwards rank `r` holds what it held before
followed by exactly the haloes, with shell and complete particle list in order, whose centre maps to
`r` (in some order). -/
theorem C19_haloes_conserved {P : Nat} (chunksize : Nat) (hc : 0 < chunksize)
    (hP : P * (chunksize + 1) < 2 ^ 31) (fill : α)
    {sort : List (Int × Nat) → List (Int × Nat)} (hsort : SortBySpec Prod.fst sort)
    (average : HaloRec S α → HaloRec S α) (cell : HaloRec S α → Outcome Int)
    (halos out : Fin P → List (HaloRec S α))
    (hcell : ∀ s, ∀ h ∈ halos s, ∃ r : Fin P, cell (average h) = .ok (r.val : Int)) :
    ∃ new : Fin P → List (HaloRec S α),
      distributeHalos chunksize fill sort average cell halos out = .ok (fun r => out r ++ new r) ∧
      ∀ r : Fin P, (new r).Perm (((List.ofFn halos).flatten.map average).filter
        (fun h => decide (cell h = .ok (r.val : Int)))) := by
  classical
  rcases Nat.eq_zero_or_pos P with h0 | hP0
  · subst h0
    exact ⟨fun r => r.elim0, by
      unfold distributeHalos distributeTo myAllToAll numLoops
      simp [allRanks]
      funext r; exact r.elim0, fun r => r.elim0⟩
  -- the rank a halo maps to
  let t : HaloRec S α → Fin P := fun h =>
    if hx : ∃ r : Fin P, cell h = .ok (r.val : Int) then hx.choose else ⟨0, hP0⟩
  have ht : ∀ h, (∃ r : Fin P, cell h = .ok (r.val : Int)) → cell h = .ok ((t h).val : Int) := by
    intro h hx
    simp only [t, dif_pos hx]
    exact hx.choose_spec
  have hdec : ∀ s, decideTargets average cell (halos s) 0 = .ok ((halos s).map average,
      (((halos s).map average).zipIdx 0).map (fun p => (((t p.1).val : Int), p.2))) :=
    fun s => decideTargets_ok average cell t _ _ (fun h hh => ht _ (hcell s h hh))
  obtain ⟨new, n1, n2⟩ := distributeTo_ok chunksize hc hP fill hsort (fun s => (halos s).map average) out t
  refine ⟨new, ?_, ?_⟩
  · unfold distributeHalos
    rw [allRanks_ok _ _ hdec, Outcome.bind_ok]
    exact n1
  · intro r
    refine (n2 r).trans (List.Perm.of_eq ?_)
    rw [List.map_flatten, List.filter_flatten, List.filter_flatten, List.map_ofFn, List.map_ofFn, List.map_ofFn]
    congr 2
    funext s
    simp only [Function.comp]
    apply List.filter_congr
    intro h hh
    obtain ⟨h', hh', rfl⟩ := List.mem_map.mp hh
    have e := ht (average h') (hcell s h' hh')
    rw [Bool.eq_iff_iff, decide_eq_true_iff, decide_eq_true_iff, e]
    constructor
    · rintro rfl; rfl
    · intro h; cases h' ; simp at h; exact Fin.ext (by omega)

section Grid
variable {K : Type} [Field K] [LinearOrder K] [FloorRing K]

/-- C19 with the grid of the code: for every rank count, `ClosestFactors` gives three factors, and
moving haloes by the grid cell of their centre leaves each halo, complete, on exactly the rank of its
cell. `centre` reads the centre off the shell. -/
theorem C19_haloes_conserved_grid (root : Nat → Nat → Nat) (hr : RootOk root) {P : Nat} (hP0 : 0 < P)
    (chunksize : Nat) (hc : 0 < chunksize) (hP : P * (chunksize + 1) < 2 ^ 31) (fill : α)
    {sort : List (Int × Nat) → List (Int × Nat)} (hsort : SortBySpec Prod.fst sort)
    (average : HaloRec S α → HaloRec S α) (centre : S → Fin 3 → K) (step : Fin 3 → K)
    (halos out : Fin P → List (HaloRec S α)) :
    ∃ dims, closestFactors root P 3 = .ok dims ∧ ∃ new : Fin P → List (HaloRec S α),
      distributeHalos chunksize fill sort average
        (fun h => assignCell (centre h.shell) step (dims.map Int.ofNat)) halos out
        = .ok (fun r => out r ++ new r) ∧
      (∀ r : Fin P, (new r).Perm (((List.ofFn halos).flatten.map average).filter
        (fun h => decide (assignCell (centre h.shell) step (dims.map Int.ofNat) = .ok (r.val : Int))))) ∧
      ((List.ofFn new).flatten).Perm ((List.ofFn halos).flatten.map average) := by
  obtain ⟨f, hf, _, hcells⟩ := C03_decomposition (K := K) root hr P hP0 step
  have hcell : ∀ h : HaloRec S α, ∃ r : Fin P,
      assignCell (centre h.shell) step (f.map Int.ofNat) = .ok (r.val : Int) := by
    intro h
    obtain ⟨r, h1, h2, h3⟩ := hcells (centre h.shell)
    exact ⟨⟨r.toNat, by omega⟩, by rw [h1]; simp; omega⟩
  obtain ⟨new, h1, h2⟩ := C19_haloes_conserved chunksize hc hP fill hsort average
    (fun h => assignCell (centre h.shell) step (f.map Int.ofNat)) halos out (fun s h _ => hcell _)
  refine ⟨f, hf, new, h1, h2, ?_⟩
  -- every halo is counted for exactly one rank
  classical
  refine (flatten_perm _ _ h2).trans ?_
  rw [List.perm_iff_count]
  intro a
  rw [List.count_flatten, List.map_ofFn, List.sum_ofFn]
  obtain ⟨r0, hr0⟩ := hcell a
  rw [Finset.sum_eq_single r0]
  · simp only [Function.comp]
    rw [List.count_filter (by simpa using hr0)]
  · intro r _ hne
    simp only [Function.comp]
    rw [List.count_eq_zero]
    intro hm
    have := (List.mem_filter.mp hm).2
    rw [decide_eq_true_iff, hr0] at this
    simp at this
    exact hne (Fin.ext (by omega))
  · intro h; exact absurd (Finset.mem_univ r0) h

end Grid

/-- Two ranks, cell = value of the shell: four haloes change places. -/
example : ∃ new : Fin 2 → List (HaloRec Int Nat), distributeHalos (P := 2) 1024 0 (fun l => l.mergeSort (fun a b => a.1 ≤ b.1)) id
      (fun h : HaloRec Int Nat => .ok h.shell)
      (fun s => if s = 0 then [⟨1, [5, 6]⟩, ⟨0, []⟩, ⟨1, [7]⟩] else [⟨0, [8]⟩]) (fun _ => [])
      = .ok (fun r => (fun _ => []) r ++ new r) ∧ (new 1).Perm [⟨1, [5, 6]⟩, ⟨1, [7]⟩] := by
  obtain ⟨new, h1, h2⟩ := C19_haloes_conserved (P := 2) 1024 (by decide) (by decide) 0
    (sort := fun l => l.mergeSort (fun a b => a.1 ≤ b.1))
    ⟨fun l => List.mergeSort_perm l _, fun l => by
      have := List.pairwise_mergeSort (le := fun a b : Int × Nat => decide (a.1 ≤ b.1))
        (by intro a b c; simp; intro h1 h2; omega) (by intro a b; simp; omega) l
      simpa using this⟩ id
    (fun h : HaloRec Int Nat => .ok h.shell)
    (fun s => if s = 0 then [⟨1, [5, 6]⟩, ⟨0, []⟩, ⟨1, [7]⟩] else [⟨0, [8]⟩]) (fun _ => [])
    (by decide)
  exact ⟨new, h1, (h2 1).trans (List.Perm.of_eq (by decide))⟩

end HBT.Props
