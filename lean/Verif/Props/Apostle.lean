import Verif.Lemmas.Apostle
import Verif.Props.Average
/-!
# C44: snapshots and groups from files with per-particle group numbers
-/
namespace HBT.Props
open HBT HBT.Model HBT.Spec
variable {R H α I : Type}

/-- C44, snapshots: on any number of ranks, the particles over all ranks are the records of all files,
converted, each once and in order. -/
theorem C44_snapshot (P : Nat) (hP : 0 < P) (conv : Nat → R → H) (blank : H)
    (files : List (List (Nat × Option (List R)))) (hf : Announced files) :
    ∃ out : Fin P → List H, loadParticles P conv blank files = .ok out ∧
      (List.ofFn out).flatten = (records files).map (fun x => conv x.1 x.2) :=
  loadParticles_ok hP conv blank files hf

/-- The specifications of the `std::sort` calls. -/
structure SortsOk (so : ApostleSorts α I) : Prop where
  hosts : SortBySpec Prod.snd so.hosts
  byId : SortBySpec HaloInfo.id so.byId
  byOrder : SortBySpec (fun h => (h.order : Int)) so.byOrder
  byRank : SortBySpec Prod.fst so.byRank
  byHalo : SortBySpec HaloRec.shell so.byHalo

/-- The result of loading groups, with what is needed to locate them. -/
theorem apostle_core (P : Nat) (hP : 0 < P) (chunksize : Nat) (hc : 0 < chunksize)
    (hmpi : P * (chunksize + 1) < 2 ^ 31) (fill : α) (so : ApostleSorts α I) (hso : SortsOk so)
    (part : Nat → R → α) (gnum : R → Int) (blank : α × Int) (info : List α → I) (target : List I → Outcome Int)
    (ht : ∀ xs, xs ≠ [] → ∃ r : Fin P, target xs = .ok (r.val : Int))
    (files : List (List (Nat × Option (List R)))) (hf : Announced files)
    (hg : ∀ x ∈ records files, gnum x.2 ≤ 2 ^ 30) :
    ∃ out : Fin P → List (HaloRec Int α),
      loadApostleGroups P chunksize fill so (fun ty r => (part ty r, hostOf (gnum r))) blank info target files = .ok out ∧
      (∀ r, (out r).Pairwise (fun a b => a.shell < b.shell)) ∧
      (∀ r r' h h', h ∈ out r → h' ∈ out r' → h.shell = h'.shell → r = r' ∧ h = h') ∧
      (∀ g, (∃ r, ∃ h ∈ out r, h.shell = g) ↔ 0 ≤ g ∧ g < 2 ^ 30 ∧ ∃ x ∈ records files, gnum x.2 = g) ∧
      (∀ r, ∀ h ∈ out r, h.particles.Perm
        (((records files).filter (fun x => decide (gnum x.2 = h.shell))).map (fun x => part x.1 x.2))) ∧
      (∀ r, ∀ h ∈ out r, ∃ pieces : List (List α), pieces ≠ [] ∧ (∀ p ∈ pieces, p ≠ []) ∧ pieces.flatten.Perm h.particles ∧
        target (pieces.map info) = .ok (r.val : Int)) := by
  classical
  have hnull : nullGroupId = 2 ^ 30 := by decide
  obtain ⟨ps, hps, hall⟩ := loadParticles_ok hP (fun ty r => (part ty r, hostOf (gnum r))) blank files hf
  have hmem : ∀ r, ∀ p ∈ ps r, ∃ x ∈ records files, (part x.1 x.2, hostOf (gnum x.2)) = p := by
    intro r p hp
    have : p ∈ (List.ofFn ps).flatten := List.mem_flatten.mpr ⟨ps r, List.mem_ofFn.mpr ⟨r, rfl⟩, hp⟩
    rw [hall] at this
    exact List.mem_map.mp this
  have hmem' : ∀ x ∈ records files, ∃ r, (part x.1 x.2, hostOf (gnum x.2)) ∈ ps r := by
    intro x hx
    have : (part x.1 x.2, hostOf (gnum x.2)) ∈ (List.ofFn ps).flatten := by
      rw [hall]; exact List.mem_map.mpr ⟨x, hx, rfl⟩
    obtain ⟨l, hl, h⟩ := List.mem_flatten.mp this
    obtain ⟨r, rfl⟩ := List.mem_ofFn.mp hl
    exact ⟨r, h⟩
  have hhost : ∀ x ∈ records files, 0 ≤ hostOf (gnum x.2) ∧ hostOf (gnum x.2) ≤ nullGroupId := by
    intro x hx
    have := hg x hx
    unfold hostOf
    split <;> omega
  have hhost' : ∀ (g d : Int), d < nullGroupId → 0 ≤ d → (hostOf g = d ↔ g = d) := by
    intro g d h1 h2
    unfold hostOf
    split <;> omega
  have hloc := fun r => localGroups_ok hso.hosts (ps r) (by
    intro p hp
    obtain ⟨x, hx, rfl⟩ := hmem r p hp
    exact hhost x hx)
  choose ds hds1 hds2 hds3 using hloc
  let mem : Fin P → Int → List α := fun s d => ((so.hosts (ps s)).filter (fun p => decide (p.2 = d))).map Prod.fst
  let halos : Fin P → List (HaloRec Int α) := fun s => (ds s).map (fun d => HaloRec.mk d (mem s d))
  have hds0 : ∀ s, ∀ d ∈ ds s, 0 ≤ d ∧ d < nullGroupId := by
    intro s d hd
    obtain ⟨⟨p, hp, rfl⟩, h⟩ := (hds3 s d).mp hd
    obtain ⟨x, hx, rfl⟩ := hmem s p hp
    exact ⟨(hhost x hx).1, h⟩
  have hmemne : ∀ s, ∀ d ∈ ds s, mem s d ≠ [] := by
    intro s d hd
    obtain ⟨⟨p, hp, hpd⟩, _⟩ := (hds3 s d).mp hd
    intro hnil
    have : p.1 ∈ mem s d := List.mem_map.mpr ⟨p, List.mem_filter.mpr
      ⟨(hso.hosts.perm _).mem_iff.mpr hp, by simpa using hpd⟩, rfl⟩
    rw [hnil] at this
    simp at this
  obtain ⟨t, ht1, ht2⟩ := decideApostle_ok hP hso.byId hso.byOrder target ht
    (fun s => (halos s).map (fun h => (h.shell, info h.particles)))
    (by
      intro s
      simp only [halos]
      rw [List.pairwise_map, List.pairwise_map]
      exact hds2 s)
    (by
      intro s x hx
      obtain ⟨h, hh, rfl⟩ := List.mem_map.mp hx
      obtain ⟨d, hd, rfl⟩ := List.mem_map.mp hh
      exact (hds0 s d hd).1)
  obtain ⟨new, hn1, hn2⟩ := distributeTo_ok chunksize hc hmpi fill hso.byRank halos (fun _ => []) (fun h => t h.shell)
  have hrank : (fun s => ((halos s).map (fun h => (h.shell, info h.particles))).zipIdx.map
      (fun p => (((t p.1.1).val : Int), p.2))) = fun s => ((halos s).zipIdx 0).map (fun p => (((t p.1.shell).val : Int), p.2)) := by
    funext s
    rw [zipIdx_map_fst' (fun x : Int × I => ((t x.1).val : Int)),
      zipIdx_map_fst' (fun h : HaloRec Int α => ((t h.shell).val : Int)), List.map_map]
    rfl
  -- the pieces of a group, over all ranks
  have hfilter : ∀ d, 0 ≤ d → d < nullGroupId →
      (((List.ofFn halos).flatten.filter (fun x => decide (x.shell = d))).flatMap HaloRec.particles).Perm
        (((records files).filter (fun x => decide (gnum x.2 = d))).map (fun x => part x.1 x.2)) := by
    intro d hd0 hd1
    have e1 : ∀ s, ((halos s).filter (fun x => decide (x.shell = d))).flatMap HaloRec.particles = mem s d := by
      intro s
      simp only [halos]
      rw [List.filter_map, List.flatMap_map]
      have hnod : (ds s).Nodup := (hds2 s).imp (fun h => by omega)
      by_cases hin : d ∈ ds s
      · have : (ds s).filter ((fun x : HaloRec Int α => decide (x.shell = d)) ∘ fun d => HaloRec.mk d (mem s d)) = [d] := by
          have h1 : (ds s).filter ((fun x : HaloRec Int α => decide (x.shell = d)) ∘ fun d => HaloRec.mk d (mem s d))
              = (ds s).filter (fun x => x == d) := by
            apply List.filter_congr
            intro x _
            rw [Bool.eq_iff_iff]
            simp
          rw [h1, List.filter_beq, List.count_eq_one_of_mem hnod hin]
          rfl
        rw [this]
        simp
      · have : (ds s).filter ((fun x : HaloRec Int α => decide (x.shell = d)) ∘ fun d => HaloRec.mk d (mem s d)) = [] := by
          rw [List.filter_eq_nil_iff]
          intro x hx hxd
          have : x = d := by simpa using hxd
          rw [this] at hx
          exact hin hx
        rw [this]
        simp only [List.flatMap_nil]
        have : (so.hosts (ps s)).filter (fun p => decide (p.2 = d)) = [] := by
          rw [List.filter_eq_nil_iff]
          intro p hp hpd
          exact hin ((hds3 s d).mpr ⟨⟨p, (hso.hosts.perm _).mem_iff.mp hp, by simpa using hpd⟩, hd1⟩)
        simp only [mem, this, List.map_nil]
    have e2 : ((List.ofFn halos).flatten.filter (fun x => decide (x.shell = d))).flatMap HaloRec.particles
        = (List.ofFn (fun s => mem s d)).flatten := by
      rw [List.filter_flatten, List.flatMap_def, List.map_flatten, List.flatten_flatten, List.map_ofFn, List.map_ofFn,
        List.map_ofFn]
      congr 2
      funext s
      rw [← e1 s, List.flatMap_def]
      rfl
    rw [e2]
    have e3 : (List.ofFn (fun s => mem s d)).flatten.Perm
        (List.ofFn (fun s => ((ps s).filter (fun p => decide (p.2 = d))).map Prod.fst)).flatten :=
      flatten_perm _ _ (fun s => ((hso.hosts.perm _).filter _).map _)
    refine e3.trans (List.Perm.of_eq ?_)
    have e4 : (List.ofFn (fun s => ((ps s).filter (fun p => decide (p.2 = d))).map Prod.fst)).flatten
        = ((List.ofFn ps).flatten.filter (fun p => decide (p.2 = d))).map Prod.fst := by
      rw [List.filter_flatten, List.map_flatten, List.map_ofFn, List.map_ofFn]
      rfl
    rw [e4, hall, List.filter_map, List.map_map]
    have : (records files).filter ((fun p : α × Int => decide (p.2 = d)) ∘ fun x => (part x.1 x.2, hostOf (gnum x.2)))
        = (records files).filter (fun x => decide (gnum x.2 = d)) := by
      apply List.filter_congr
      intro x _
      rw [Bool.eq_iff_iff]
      simp only [Function.comp, decide_eq_true_eq]
      exact hhost' _ _ hd1 hd0
    rw [this]
    rfl
  have hmerge := fun r => mergeHalos_ok hso.byHalo (new r)
  have hnewmem : ∀ r h, h ∈ new r ↔ (∃ s, h ∈ halos s) ∧ t h.shell = r := by
    intro r h
    rw [(hn2 r).mem_iff, List.mem_filter, List.mem_flatten]
    constructor
    · rintro ⟨⟨l, hl, hh⟩, htr⟩
      obtain ⟨s, rfl⟩ := List.mem_ofFn.mp hl
      exact ⟨⟨s, hh⟩, by simpa using htr⟩
    · rintro ⟨⟨s, hh⟩, htr⟩
      exact ⟨⟨_, List.mem_ofFn.mpr ⟨s, rfl⟩, hh⟩, by simpa using htr⟩
  have hout : ∀ r, ∀ h ∈ mergeHalos so.byHalo (new r), t h.shell = r ∧ ∃ s, h.shell ∈ ds s := by
    intro r h hh
    obtain ⟨⟨h', hh', he⟩, _⟩ := (hmerge r).2.1 h hh
    obtain ⟨⟨s, hs⟩, htr⟩ := (hnewmem r h').mp hh'
    obtain ⟨d, hd, rfl⟩ := List.mem_map.mp hs
    rw [← he]
    exact ⟨htr, s, hd⟩
  have hsame : ∀ r, ∀ h ∈ mergeHalos so.byHalo (new r), ((new r).filter (fun x => decide (x.shell = h.shell))).Perm
      ((List.ofFn halos).flatten.filter (fun x => decide (x.shell = h.shell))) := by
    intro r h hh
    refine ((hn2 r).filter _).trans (List.Perm.of_eq ?_)
    rw [List.filter_filter]
    apply List.filter_congr
    intro x _
    have := (hout r h hh).1
    rw [Bool.eq_iff_iff]
    simp only [Bool.and_eq_true, decide_eq_true_eq]
    constructor
    · exact fun h => h.1
    · intro hx; exact ⟨hx, by rw [hx]; exact this⟩
  have hparts : ∀ r, ∀ h ∈ mergeHalos so.byHalo (new r), h.particles.Perm
      (((records files).filter (fun x => decide (gnum x.2 = h.shell))).map (fun x => part x.1 x.2)) := by
    intro r h hh
    obtain ⟨s, hs⟩ := (hout r h hh).2
    obtain ⟨d0, d1⟩ := hds0 s _ hs
    exact (((hmerge r).2.1 h hh).2.trans ((hsame r h hh).flatMap_right _)).trans (hfilter h.shell d0 d1)
  refine ⟨fun r => mergeHalos so.byHalo (new r), ?_, fun r => (hmerge r).1, ?_, ?_, hparts, ?_⟩
  · unfold loadApostleGroups
    rw [hps, Outcome.bind_ok, allRanks_ok _ halos (fun r => hds1 r), Outcome.bind_ok, ht1, Outcome.bind_ok]
    have e : (fun s => (halos s, ((halos s).map (fun h => (h.shell, info h.particles))).zipIdx.map
        (fun p => (((t p.1.1).val : Int), p.2))))
        = fun s => (halos s, ((halos s).zipIdx 0).map (fun p => (((t p.1.shell).val : Int), p.2))) :=
      funext (fun s => by rw [← congrFun hrank s])
    rw [e, hn1, Outcome.bind_ok]
    simp
  · intro r r' h h' hh hh' he
    have h1 := (hout r h hh).1
    have h2 := (hout r' h' hh').1
    rw [he, h2] at h1
    subst h1
    refine ⟨rfl, ?_⟩
    have hnd : ((mergeHalos so.byHalo (new r')).map HaloRec.shell).Nodup := by
      rw [List.Nodup, List.pairwise_map]
      exact (hmerge r').1.imp (fun h => by omega)
    exact List.inj_on_of_nodup_map hnd hh hh' he
  · intro g
    constructor
    · rintro ⟨r, h, hh, rfl⟩
      obtain ⟨s, hs⟩ := (hout r h hh).2
      obtain ⟨⟨p, hp, hpd⟩, h1⟩ := (hds3 s _).mp hs
      obtain ⟨x, hx, rfl⟩ := hmem s p hp
      have h0 := (hds0 s _ hs).1
      exact ⟨h0, by omega, x, hx, (hhost' _ _ h1 h0).mp hpd⟩
    · rintro ⟨g0, g1, x, hx, hxg⟩
      obtain ⟨s, hs⟩ := hmem' x hx
      have hg1 : g < nullGroupId := by omega
      have hd : g ∈ ds s := (hds3 s g).mpr ⟨⟨_, hs, (hhost' _ _ hg1 g0).mpr hxg⟩, hg1⟩
      have hnew : HaloRec.mk g (mem s g) ∈ new (t g) :=
        (hnewmem _ _).mpr ⟨⟨s, List.mem_map.mpr ⟨g, hd, rfl⟩⟩, rfl⟩
      obtain ⟨h, hh, he⟩ := (hmerge (t g)).2.2 _ hnew
      exact ⟨t g, h, hh, he⟩
  · intro r h hh
    obtain ⟨htr, s, hs⟩ := hout r h hh
    obtain ⟨L, hL1, hL2⟩ := ht2 s (h.shell, info (mem s h.shell))
      (List.mem_map.mpr ⟨HaloRec.mk h.shell (mem s h.shell), List.mem_map.mpr ⟨_, hs, rfl⟩, rfl⟩)
    have e : (((List.ofFn (fun s => (halos s).map (fun h => (h.shell, info h.particles)))).flatten.filter
        (fun y => decide (y.1 = h.shell))).map Prod.snd)
        = ((List.ofFn halos).flatten.filter (fun x => decide (x.shell = h.shell))).map (fun x => info x.particles) := by
      have : (List.ofFn (fun s => (halos s).map (fun h => (h.shell, info h.particles)))).flatten
          = (List.ofFn halos).flatten.map (fun h => (h.shell, info h.particles)) := by
        rw [List.map_flatten, List.map_ofFn]; rfl
      rw [this, List.filter_map, List.map_map]
      rfl
    simp only at hL1
    rw [e] at hL1
    obtain ⟨X, hX1, hX2⟩ : ∃ X : List (HaloRec Int α),
        X.Perm ((List.ofFn halos).flatten.filter (fun x => decide (x.shell = h.shell))) ∧
        X.map (fun x => info x.particles) = L := by
      exact perm_map_lift _ hL1
    have hXmem : ∀ x ∈ X, ∃ s, ∃ d ∈ ds s, x = HaloRec.mk d (mem s d) := by
      intro x hx
      obtain ⟨l, hl, hxl⟩ := List.mem_flatten.mp (List.mem_filter.mp (hX1.mem_iff.mp hx)).1
      obtain ⟨s, rfl⟩ := List.mem_ofFn.mp hl
      obtain ⟨d, hd, rfl⟩ := List.mem_map.mp hxl
      exact ⟨s, d, hd, rfl⟩
    refine ⟨X.map HaloRec.particles, ?_, ?_, ?_, ?_⟩
    · intro hnil
      have hX0 : X = [] := List.map_eq_nil_iff.mp hnil
      rw [hX0] at hX1
      have h2 := List.filter_eq_nil_iff.mp hX1.symm.eq_nil (HaloRec.mk h.shell (mem s h.shell))
        (List.mem_flatten.mpr ⟨halos s, List.mem_ofFn.mpr ⟨s, rfl⟩, List.mem_map.mpr ⟨_, hs, rfl⟩⟩)
      simp at h2
    · intro p hp
      obtain ⟨x, hx, rfl⟩ := List.mem_map.mp hp
      obtain ⟨s, d, hd, rfl⟩ := hXmem x hx
      exact hmemne s d hd
    · rw [← List.flatMap_def]
      exact (((hX1.flatMap_right _).trans ((hsame r h hh).flatMap_right _).symm)).trans ((hmerge r).2.1 h hh).2.symm
    · rw [List.map_map]
      have : X.map (info ∘ HaloRec.particles) = L := hX2
      rw [this, hL2, htr]

section Code
variable {K : Type} [Field K] [LinearOrder K] [IsStrictOrderedRing K] [FloorRing K]

/-- C44. Loading groups from per-particle group numbers, with the averages and the grid of the code,
on any number of ranks and for any distribution of records over files and types. If no group number
exceeds 2^30 the load succeeds, every halo is on one rank only, the halo numbers are exactly the
non-negative group numbers below 2^30 that occur, ascending on each rank, and a halo holds exactly
the particles carrying its number. -/
theorem C44_groups (root : Nat → Nat → Nat) (hr : RootOk root) (P : Nat) (hP : 0 < P) (chunksize : Nat)
    (hc : 0 < chunksize) (hmpi : P * (chunksize + 1) < 2 ^ 31) (fill : α)
    (so : ApostleSorts α (K × (Fin 3 → K))) (hso : SortsOk so) (part : Nat → R → α) (gnum : R → Int) (blank : α × Int)
    (periodic : Bool) (B : K) (com step : Fin 3 → K) (weight : α → K × (Fin 3 → K))
    (files : List (List (Nat × Option (List R)))) (hf : Announced files)
    (hg : ∀ x ∈ records files, gnum x.2 ≤ 2 ^ 30) :
    ∃ dims, closestFactors root P 3 = .ok dims ∧ ∃ out : Fin P → List (HaloRec Int α),
      loadApostleGroups P chunksize fill so (fun ty r => (part ty r, hostOf (gnum r))) blank
        (fun l => averagePosition periodic B com (l.map weight))
        (reduceHaloRank periodic B step (dims.map Int.ofNat)) files = .ok out ∧
      (∀ r, (out r).Pairwise (fun a b => a.shell < b.shell)) ∧
      (∀ r r' h h', h ∈ out r → h' ∈ out r' → h.shell = h'.shell → r = r' ∧ h = h') ∧
      (∀ g, (∃ r, ∃ h ∈ out r, h.shell = g) ↔ 0 ≤ g ∧ g < 2 ^ 30 ∧ ∃ x ∈ records files, gnum x.2 = g) ∧
      (∀ r, ∀ h ∈ out r, h.particles.Perm
        (((records files).filter (fun x => decide (gnum x.2 = h.shell))).map (fun x => part x.1 x.2))) := by
  obtain ⟨dims, hd, _, hcells⟩ := C03_decomposition (K := K) root hr P hP step
  obtain ⟨out, h1, h2, h3, h4, h5, _⟩ := apostle_core P hP chunksize hc hmpi fill so hso part gnum blank
    (fun l => averagePosition periodic B com (l.map weight)) (reduceHaloRank periodic B step (dims.map Int.ofNat))
    (fun xs _ => by
      obtain ⟨r, a, b, c⟩ := hcells (reduceHaloPosition periodic B (fun _ => 0) xs).2
      exact ⟨⟨r.toNat, by omega⟩, by rw [reduceHaloRank, a]; simp; omega⟩) files hf hg
  exact ⟨dims, hd, out, h1, h2, h3, h4, h5⟩

/-- C44: where the groups go, without periodic boundary: to the rank whose grid cell holds their
centre of mass, no matter how their particles were spread over the files. -/
theorem C44_placement (root : Nat → Nat → Nat) (hr : RootOk root) (P : Nat) (hP : 0 < P) (chunksize : Nat)
    (hc : 0 < chunksize) (hmpi : P * (chunksize + 1) < 2 ^ 31) (fill : α)
    (so : ApostleSorts α (K × (Fin 3 → K))) (hso : SortsOk so) (part : Nat → R → α) (gnum : R → Int) (blank : α × Int)
    (B : K) (com step : Fin 3 → K) (weight : α → K × (Fin 3 → K))
    (files : List (List (Nat × Option (List R)))) (hw : ∀ x ∈ records files, 0 < (weight (part x.1 x.2)).1) (hf : Announced files)
    (hg : ∀ x ∈ records files, gnum x.2 ≤ 2 ^ 30) :
    ∃ dims, closestFactors root P 3 = .ok dims ∧ ∃ out : Fin P → List (HaloRec Int α),
      loadApostleGroups P chunksize fill so (fun ty r => (part ty r, hostOf (gnum r))) blank
        (fun l => averagePosition false B com (l.map weight))
        (reduceHaloRank false B step (dims.map Int.ofNat)) files = .ok out ∧
      ∀ r, ∀ h ∈ out r, assignCell (massMean (h.particles.map weight)) step (dims.map Int.ofNat) = .ok (r.val : Int) := by
  obtain ⟨dims, hd, _, hcells⟩ := C03_decomposition (K := K) root hr P hP step
  obtain ⟨out, h1, _, _, _, h5, h6⟩ := apostle_core P hP chunksize hc hmpi fill so hso part gnum blank
    (fun l => averagePosition false B com (l.map weight)) (reduceHaloRank false B step (dims.map Int.ofNat))
    (fun xs _ => by
      obtain ⟨r, a, b, c⟩ := hcells (reduceHaloPosition false B (fun _ => 0) xs).2
      exact ⟨⟨r.toNat, by omega⟩, by rw [reduceHaloRank, a]; simp; omega⟩) files hf hg
  refine ⟨dims, hd, out, h1, ?_⟩
  intro r h hh
  obtain ⟨pieces, p1, p2, p3, p4⟩ := h6 r h hh
  have hw : ∀ l ∈ pieces, ∀ a ∈ l, 0 < (weight a).1 := by
    intro l hl a ha
    obtain ⟨x, hx, rfl⟩ := List.mem_map.mp ((h5 r h hh).mem_iff.mp (p3.mem_iff.mp (List.mem_flatten.mpr ⟨l, hl, ha⟩)))
    exact hw x (List.mem_filter.mp hx).1
  have hpos : ∀ l ∈ pieces, 0 < massSum (l.map weight) := fun l hl =>
    massSum_pos _ (by simpa using p2 l hl) (by
      intro p hp
      obtain ⟨a, ha, rfl⟩ := List.mem_map.mp hp
      exact hw l hl a ha)
  have e : pieces.map (fun l => averagePosition false B com (l.map weight))
      = pieces.map (fun l => (massSum (l.map weight), massMean (l.map weight))) :=
    List.map_congr_left (fun l hl => averagePosition_free B com _ (by simpa using p2 l hl) (hpos l hl).ne')
  rw [e, reduceHaloRank, reduce_free, averagePosition_free B _ _ (by simpa using p1)] at p4
  · have e2 : pieces.map (fun l => (massSum (l.map weight), massMean (l.map weight)))
        = (pieces.map (List.map weight)).map (fun l => (massSum l, massMean l)) := by rw [List.map_map]; rfl
    rw [e2] at p4
    simp only at p4
    rw [mean_of_means _ (by
      intro l hl
      obtain ⟨l', hl', rfl⟩ := List.mem_map.mp hl
      exact (hpos l' hl').ne'), ← List.map_flatten, massMean_perm (p3.map weight)] at p4
    exact p4
  · refine (massSum_pos _ (by simpa using p1) ?_).ne'
    intro p hp
    obtain ⟨l, hl, rfl⟩ := List.mem_map.mp hp
    exact hpos l hl

/-- C44: where the groups go in a periodic box, for groups that are compact in free space: to the
rank whose grid cell holds a point that is their centre of mass up to whole box lengths. `free` gives
the particles in free space. -/
theorem C44_placement_periodic (root : Nat → Nat → Nat) (hr : RootOk root) (P : Nat) (hP : 0 < P) (chunksize : Nat)
    (hc : 0 < chunksize) (hmpi : P * (chunksize + 1) < 2 ^ 31) (fill : α)
    (so : ApostleSorts α (K × (Fin 3 → K))) (hso : SortsOk so) (part : Nat → R → α) (gnum : R → Int) (blank : α × Int)
    (B : K) (hB : 0 < B) (com step : Fin 3 → K) (free : α → BoxParticle K)
    (files : List (List (Nat × Option (List R)))) (hw : ∀ x ∈ records files, 0 < (free (part x.1 x.2)).mass) (hf : Announced files)
    (hg : ∀ x ∈ records files, gnum x.2 ≤ 2 ^ 30) :
    ∃ dims, closestFactors root P 3 = .ok dims ∧ ∃ out : Fin P → List (HaloRec Int α),
      loadApostleGroups P chunksize fill so (fun ty r => (part ty r, hostOf (gnum r))) blank
        (fun l => averagePosition true B com (l.map (fun a => (free a).seen B)))
        (reduceHaloRank true B step (dims.map Int.ofNat)) files = .ok out ∧
      ∀ r, ∀ h ∈ out r, CompactIn B (h.particles.map free) → SeenInBox B (h.particles.map free) →
        ∃ c, SameModBox B (massMean ((h.particles.map free).map BoxParticle.free)) c ∧
          assignCell c step (dims.map Int.ofNat) = .ok (r.val : Int) := by
  obtain ⟨dims, hd, _, hcells⟩ := C03_decomposition (K := K) root hr P hP step
  obtain ⟨out, h1, _, _, _, h5, h6⟩ := apostle_core P hP chunksize hc hmpi fill so hso part gnum blank
    (fun l => averagePosition true B com (l.map (fun a => (free a).seen B))) (reduceHaloRank true B step (dims.map Int.ofNat))
    (fun xs _ => by
      obtain ⟨r, a, b, c⟩ := hcells (reduceHaloPosition true B (fun _ => 0) xs).2
      exact ⟨⟨r.toNat, by omega⟩, by rw [reduceHaloRank, a]; simp; omega⟩) files hf hg
  refine ⟨dims, hd, out, h1, ?_⟩
  intro r h hh hcomp hrec
  obtain ⟨pieces, p1, p2, p3, p4⟩ := h6 r h hh
  have hmem : ∀ l ∈ pieces, ∀ a ∈ l, free a ∈ h.particles.map free := fun l hl a ha =>
    List.mem_map.mpr ⟨a, p3.mem_iff.mp (List.mem_flatten.mpr ⟨l, hl, ha⟩), rfl⟩
  have hw : ∀ l ∈ pieces, ∀ a ∈ l, 0 < (free a).mass := by
    intro l hl a ha
    obtain ⟨x, hx, rfl⟩ := List.mem_map.mp ((h5 r h hh).mem_iff.mp (p3.mem_iff.mp (List.mem_flatten.mpr ⟨l, hl, ha⟩)))
    exact hw x (List.mem_filter.mp hx).1
  have hpos : ∀ l ∈ pieces, 0 < massSum ((l.map free).map BoxParticle.free) := fun l hl =>
    massSum_pos _ (by simpa using p2 l hl) (by
      intro p hp
      obtain ⟨q, hq, rfl⟩ := List.mem_map.mp hp
      obtain ⟨a, ha, rfl⟩ := List.mem_map.mp hq
      exact hw l hl a ha)
  have hnear : ∀ a b, a ∈ h.particles.map free → b ∈ h.particles.map free → Near B a b := by
    intro a b ha hb j
    have := hcomp b hb a ha
    exact ⟨this j, turns_near B hB b a this (hrec b hb) (hrec a ha) j⟩
  -- every piece is a point of mass in the box
  let centre : List α → BoxParticle K := fun l =>
    BoxParticle.mk (massSum ((l.map free).map BoxParticle.free)) (massMean ((l.map free).map BoxParticle.free))
      (match l with | [] => fun _ => 0 | a :: _ => (free a).turns)
  have hcentre : ∀ l ∈ pieces, averagePosition true B com (l.map (fun a => (free a).seen B)) = (centre l).seen B := by
    intro l hl
    match l, p2 l hl, hl with
    | a :: l, _, hl =>
      have e : (a :: l).map (fun a => (free a).seen B) = (free a :: l.map free).map (BoxParticle.seen B) := by
        rw [← List.map_cons, List.map_map]; rfl
      rw [e, averagePosition_box B hB com (free a) (l.map free) ?_ (hpos (a :: l) hl).ne']
      · rfl
      · intro p hp
        rw [← List.map_cons] at hp
        obtain ⟨b, hb, rfl⟩ := List.mem_map.mp hp
        exact hnear _ _ (hmem _ hl a (by simp)) (hmem _ hl b hb)
  have e : pieces.map (fun l => averagePosition true B com (l.map (fun a => (free a).seen B)))
      = (pieces.map centre).map (BoxParticle.seen B) := by
    rw [List.map_map]
    exact List.map_congr_left hcentre
  have hcn : ∀ l ∈ pieces, ∀ l' ∈ pieces, Near B (centre l) (centre l') := by
    intro l hl l' hl' j
    match l, p2 l hl, l', p2 l' hl' with
    | a :: l, _, a' :: l', _ =>
      refine ⟨?_, (hnear _ _ (hmem _ hl a (by simp)) (hmem _ hl' a' (by simp)) j).2⟩
      simp only [centre]
      refine mean_near _ (by simp) ?_ j _ _ ?_
      · intro p hp
        obtain ⟨q, hq, rfl⟩ := List.mem_map.mp hp
        obtain ⟨b, hb, rfl⟩ := List.mem_map.mp hq
        exact hw _ hl' b hb
      · intro p hp
        obtain ⟨q, hq, rfl⟩ := List.mem_map.mp hp
        obtain ⟨b', hb', rfl⟩ := List.mem_map.mp hq
        rw [abs_sub_comm]
        refine mean_near _ (by simp) ?_ j _ _ ?_
        · intro p hp
          obtain ⟨q, hq, rfl⟩ := List.mem_map.mp hp
          obtain ⟨b, hb, rfl⟩ := List.mem_map.mp hq
          exact hw _ hl b hb
        · intro p hp
          obtain ⟨q, hq, rfl⟩ := List.mem_map.mp hp
          obtain ⟨b, hb, rfl⟩ := List.mem_map.mp hq
          exact hcomp _ (hmem _ hl b hb) _ (hmem _ hl' b' hb') j
  rw [e, reduceHaloRank] at p4
  refine ⟨_, ?_, p4⟩
  match pieces, p1, p2, p3, hcn, hpos with
  | l0 :: ls, _, p2, p3, hcn, hpos =>
    have hsum : massSum ((centre l0 :: ls.map centre).map BoxParticle.free) ≠ 0 := by
      refine (massSum_pos _ (by simp) ?_).ne'
      intro p hp
      rw [← List.map_cons] at hp
      obtain ⟨q, hq, rfl⟩ := List.mem_map.mp hp
      obtain ⟨l, hl, rfl⟩ := List.mem_map.mp hq
      exact hpos l hl
    have hav := averagePosition_box B hB (fun _ => 0) (centre l0) (ls.map centre) (by
      intro p hp
      rw [← List.map_cons] at hp
      obtain ⟨l, hl, rfl⟩ := List.mem_map.mp hp
      exact hcn l0 (by simp) l hl) hsum
    have hmean : massMean ((centre l0 :: ls.map centre).map BoxParticle.free)
        = massMean ((h.particles.map free).map BoxParticle.free) := by
      have e2 : (centre l0 :: ls.map centre).map BoxParticle.free
          = ((l0 :: ls).map (fun l => (l.map free).map BoxParticle.free)).map (fun l => (massSum l, massMean l)) := by
        rw [← List.map_cons, List.map_map, List.map_map]; rfl
      rw [e2, mean_of_means _ (by
        intro l hl
        obtain ⟨l', hl', rfl⟩ := List.mem_map.mp hl
        exact (hpos l' hl').ne')]
      have e3 : ((l0 :: ls).map (fun l => (l.map free).map BoxParticle.free)).flatten
          = (((l0 :: ls).flatten.map free).map BoxParticle.free) := by
        rw [List.map_map, List.map_flatten]
        congr 1
        exact List.map_congr_left (fun l _ => List.map_map)
      rw [e3]
      exact massMean_perm ((p3.map free).map BoxParticle.free)
    have hred := reduce_box B hB (x := fun _ => 0) ((l0 :: ls).map centre |>.map (BoxParticle.seen B))
    refine SameModBox.trans ?_ hred
    rw [List.map_cons, hav, hmean]
    exact fun j => ⟨_, rfl⟩

end Code

/-- C44: a group number above 2^30 is refused. -/
theorem C44_refused (P : Nat) (hP : 0 < P) (chunksize : Nat) (fill : α) (so : ApostleSorts α I) (hso : SortsOk so)
    (part : Nat → R → α) (gnum : R → Int) (blank : α × Int) (info : List α → I) (target : List I → Outcome Int)
    (files : List (List (Nat × Option (List R)))) (hf : Announced files)
    (hbad : ∃ x ∈ records files, 2 ^ 30 < gnum x.2) :
    loadApostleGroups P chunksize fill so (fun ty r => (part ty r, hostOf (gnum r))) blank info target files = .abort := by
  classical
  obtain ⟨ps, hps, hall⟩ := loadParticles_ok hP (fun ty r => (part ty r, hostOf (gnum r))) blank files hf
  have hmem : ∀ r, ∀ p ∈ ps r, 0 ≤ p.2 := by
    intro r p hp
    have : p ∈ (List.ofFn ps).flatten := List.mem_flatten.mpr ⟨ps r, List.mem_ofFn.mpr ⟨r, rfl⟩, hp⟩
    rw [hall] at this
    obtain ⟨x, _, rfl⟩ := List.mem_map.mp this
    simp only [hostOf, nullGroupId]
    split <;> omega
  unfold loadApostleGroups
  rw [hps, Outcome.bind_ok]
  have : allRanks P (fun r => localGroups so.hosts (ps r)) = .abort := by
    apply allRanks_abort
    · intro r
      by_cases hb : ∀ p ∈ ps r, 0 ≤ p.2 ∧ p.2 ≤ nullGroupId
      · obtain ⟨ds, h, _⟩ := localGroups_ok hso.hosts (ps r) hb
        exact Or.inl ⟨_, h⟩
      · right
        push Not at hb
        obtain ⟨p, hp, hp2⟩ := hb
        exact localGroups_abort hso.hosts _ ⟨p, hp, hp2 (hmem r p hp)⟩
    · obtain ⟨x, hx, hxg⟩ := hbad
      have : (part x.1 x.2, hostOf (gnum x.2)) ∈ (List.ofFn ps).flatten := by
        rw [hall]; exact List.mem_map.mpr ⟨x, hx, rfl⟩
      obtain ⟨l, hl, h⟩ := List.mem_flatten.mp this
      obtain ⟨r, rfl⟩ := List.mem_ofFn.mp hl
      refine ⟨r, localGroups_abort hso.hosts _ ⟨_, h, ?_⟩⟩
      simp only [hostOf, nullGroupId]
      split <;> omega
  rw [this]
  rfl

/-- Finding: a file that announces particles of a type whose data it lacks fills the particle list
with blanks. Here one rank reads a file announcing two particles without data: the snapshot holds two
blank particles although the file holds no record. -/
theorem C44_missing_data_finding :
    loadParticles 1 (fun _ (r : Nat) => r) 0 [[(2, none)]] = .ok (fun _ => [0, 0]) ∧
      records [[(2, (none : Option (List Nat)))]] = [] := by
  constructor
  · have : assignTasks 0 1 1 = .ok (0, 1) := by rw [assignTasks_ok 0 1 1 (by decide)]; rfl
    simp [loadParticles, allRanks, this, compileOffsets, compileOffsetsFrom, PartFile.np, readPartFiles, Outcome.get,
      readTypes]
    funext i
    exact Fin.cases rfl (fun i => i.elim0) i
  · rfl

/-- Two files on two ranks, with group numbers 7, -1 and 3: they meet the hypotheses. -/
example : Announced [[(2, some [((1 : Nat), (7 : Int)), (2, -1)]), (0, none)], [(0, none), (1, some [(3, 3)])]] ∧
    (∀ x ∈ records [[(2, some [((1 : Nat), (7 : Int)), (2, -1)]), (0, none)], [(0, none), (1, some [(3, 3)])]],
      x.2.2 ≤ 2 ^ 30) ∧
    records [[(2, some [((1 : Nat), (7 : Int)), (2, -1)]), (0, none)], [(0, none), (1, some [(3, 3)])]]
      = [(0, 1, 7), (0, 2, -1), (1, 3, 3)] := by
  refine ⟨?_, by decide, by decide⟩
  unfold Announced
  decide

end HBT.Props
