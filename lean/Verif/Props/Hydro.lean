import Verif.Lemmas.Hydro
import Verif.Props.Apostle
import Verif.Spec.Basics
/-!
# C67: An HDF5 snapshot is loaded as the simulation wrote it
-/
namespace HBT.Props
open HBT.Model HBT.Spec

variable {K : Type} [Field K] [LinearOrder K] [IsStrictOrderedRing K] [FloorRing K]

theorem clipTo_eq (n : Nat) (hb : n = 4 ∨ n = 8) : clipTo n = hdfInt n := by
  funext x
  unfold clipTo hdfInt
  have : 0 < 256 ^ n / 2 := by obtain h | h := hb <;> rw [h] <;> decide
  generalize 256 ^ n / 2 = m at *
  split
  · omega
  · split <;> omega

theorem stored_eq (env : HydroEnv K) (h : HydroHeader K) (blank : HostedParticle K) (f : HydroFile K) :
    (hydroOut env h false blank (List.finRange 6) f).map Prod.fst =
      (readingOf env h).stored (hdfInt env.intBytes) blank.1 f := by
  unfold hydroOut HydroReading.stored
  rw [List.map_flatMap]
  congr 1
  funext t
  rw [List.map_map]
  by_cases hd : env.dmOnly = true ∧ t ≠ 1
  · rw [if_pos (by exact hd), hydroCount, if_pos hd]; rfl
  · rw [if_neg (by exact hd), hydroCount, if_neg hd]
    apply List.map_congr_left
    intro i _
    cases e : f.parts t <;> simp [hydroSlot]

/-- C67, what is read. For all files in which no dataset is longer than announced: process `r` gets the
particles of the files with numbers in the range `seg r`; the ranges lie next to one another and cover all
files. A particle has its position placed in the box, its velocity multiplied by the square root of the
scale factor, its id, its own mass or the common one of its type, its type and its energy, as far as the
program has such members; what is missing in the file is zero. All processes get the cosmology of the
first file. -/
theorem C67_load (env : HydroEnv K) (hb : env.intBytes = 4 ∨ env.intBytes = 8) (P : Nat) (hP : 0 < P)
    (f0 : HydroFile K) (fs : List (HydroFile K)) (hn : f0.header.numFiles = (f0 :: fs).length)
    (hbox : f0.header.boxSize = env.boxSize) (R : HydroReading K)
    (hR : R = { place := fun x => if env.periodic = true then positionModulus x env.boxSize else x
                velScale := env.sqrt f0.header.time
                massTable := f0.header.massTable
                dmOnly := env.dmOnly
                thermal := env.thermal })
    (hf : ∀ f ∈ f0 :: fs, f.Readable R.dmOnly true env.intBytes)
    (blank : HostedParticle K) (hbl : blank.1.energy = none ∧ blank.1.type = none) :
    ∃ seg : Nat → Nat × Nat, Adjacent seg P (f0 :: fs).length ∧ ∃ out,
      loadHydro env P false blank (f0 :: fs) = .ok out ∧
      ∀ r : Fin P, (out r).1 = (f0.header.time, f0.header.omega0, f0.header.omegaLambda) ∧
        (out r).2.map Prod.fst = ((((f0 :: fs).drop (seg r).1).take ((seg r).2 - (seg r).1)).map
          (R.stored (clipTo env.intBytes) blank.1)).flatten := by
  obtain ⟨seg, hseg, hadj, _, _⟩ := C02_fair_split P (f0 :: fs).length hP
  have hRe : R = readingOf env f0.header := by rw [hR]; unfold readingOf; rw [hbox]
  have hce : clipTo env.intBytes = hdfInt env.intBytes := clipTo_eq _ hb
  refine ⟨seg, hadj, _, loadHydro_ok env hb hP false f0 fs hn hbox (by rw [hRe] at hf; exact hf) blank hbl, ?_⟩
  intro r
  refine ⟨rfl, ?_⟩
  simp only
  have hs := hseg r.val r.isLt
  rw [assignTasks_ok r.val P _ r.isLt] at hs
  injection hs with hs
  rw [← hs, List.map_flatMap, HBT.seg, List.flatMap_def]
  simp only [stored_eq, hRe, hce]
  rfl

/-- The datasets of a type give back the particles they were made from. -/
theorem written_stored (R : HydroReading K) (hb : Nat) (clip : Int → Int) (hclip : ∀ x, Fits hb x → clip x = x)
    (blank : SnapParticle K) (oldNames : Bool) (isz : Nat) (keepEmpty : Bool) (h : HydroHeader K)
    (parts : Fin 6 → List (HydroRecord K)) (hids : ∀ t, ∀ p ∈ parts t, Fits hb p.id) (hgr : ∀ t, ∀ p ∈ parts t, Fits hb p.group) :
    R.stored clip blank (hydroFile oldNames isz keepEmpty h parts) =
      (R.wanted parts).map fun x => R.particle x.1 x.2 := by
  unfold HydroReading.stored HydroReading.wanted
  rw [List.map_flatMap]
  congr 1
  funext t
  split
  · rfl
  · rw [List.map_map]
    apply List.ext_getElem
    · simp [hydroFile]
    · intro i h1 h2
      simp only [List.length_map, List.length_range] at h1 h2
      have hne : (parts t).isEmpty = false := by
        cases e : parts t with
        | nil => rw [e] at h2; simp at h2
        | cons _ _ => rfl
      have e1 := hids t _ (List.getElem_mem h2)
      have e2 := hgr t _ (List.getElem_mem h2)
      simp only [List.getElem_map, List.getElem_range, Function.comp_def, hydroFile, hne, Bool.false_and,
        Bool.false_eq_true, if_false]
      congr 1
      unfold HydroGroup.record
      cases oldNames <;> simp [entry, h2, hclip _ e1, hclip _ e2]

theorem hdfInt_fits (hb : Nat) (x : Int) (h : Fits hb x) : hdfInt hb x = x := by
  obtain ⟨h1, h2⟩ := h
  unfold hdfInt
  rw [if_neg (by omega), if_neg (by omega)]

theorem written_readable (dmOnly checkIds : Bool) (hb : Nat) (oldNames : Bool) (isz : Nat) (hisz : checkIds = true → isz ≤ hb)
    (keepEmpty : Bool) (h : HydroHeader K) (parts : Fin 6 → List (HydroRecord K)) :
    (hydroFile oldNames isz keepEmpty h parts).Readable dmOnly checkIds hb := by
  intro t _ _ g hg
  unfold hydroFile at hg ⊢
  simp only at hg ⊢
  split at hg
  · exact absurd hg (by simp)
  · simp only [Option.mem_def, Option.some.injEq] at hg
    subst hg
    refine ⟨⟨?_, ?_, ?_, ?_, ?_, ?_, ?_, ?_⟩, ?_⟩ <;>
      cases oldNames <;> simp_all

/-- C67, nothing is lost or changed: for files written by a simulation, with any of the two sets of names
and any id size the program can hold, the particles of all processes, one process after the other, are the
wanted particles of all files in the order of the files and of the types. -/
theorem C67_written (env : HydroEnv K) (hb : env.intBytes = 4 ∨ env.intBytes = 8) (P : Nat) (hP : 0 < P)
    (oldNames : Bool) (isz : Nat) (hisz : isz ≤ env.intBytes) (keepEmpty : Bool)
    (f0 : HydroHeader K × (Fin 6 → List (HydroRecord K))) (fs : List (HydroHeader K × (Fin 6 → List (HydroRecord K))))
    (hn : f0.1.numFiles = (f0 :: fs).length) (hbox : f0.1.boxSize = env.boxSize) (R : HydroReading K)
    (hR : R = { place := fun x => if env.periodic = true then positionModulus x env.boxSize else x
                velScale := env.sqrt f0.1.time
                massTable := f0.1.massTable
                dmOnly := env.dmOnly
                thermal := env.thermal })
    (hids : ∀ f ∈ f0 :: fs, ∀ t, ∀ p ∈ f.2 t, Fits env.intBytes p.id ∧ Fits env.intBytes p.group)
    (blank : HostedParticle K) (hbl : blank.1.energy = none ∧ blank.1.type = none) :
    ∃ out, loadHydro env P false blank ((f0 :: fs).map fun f => hydroFile oldNames isz keepEmpty f.1 f.2) = .ok out ∧
      (List.ofFn fun r => (out r).2.map Prod.fst).flatten =
        (f0 :: fs).flatMap fun f => (R.wanted f.2).map fun x => R.particle x.1 x.2 := by
  have hRe : R = readingOf env f0.1 := by rw [hR]; unfold readingOf; rw [hbox]
  have h := loadHydro_ok env hb hP false (hydroFile oldNames isz keepEmpty f0.1 f0.2)
    (fs.map fun f => hydroFile oldNames isz keepEmpty f.1 f.2) (by simp only [hydroFile]; simpa using hn) hbox (by
      intro f hf
      rw [← List.map_cons (f := fun f => hydroFile oldNames isz keepEmpty f.1 f.2) (a := f0)] at hf
      obtain ⟨g, _, rfl⟩ := List.mem_map.mp hf
      exact written_readable _ _ _ _ _ (fun _ => hisz) _ _ _) blank hbl
  rw [List.map_cons]
  refine ⟨_, h, ?_⟩
  simp only
  have e : ∀ r : Fin P, ((HBT.seg (hydroFile oldNames isz keepEmpty f0.1 f0.2 ::
        fs.map fun f => hydroFile oldNames isz keepEmpty f.1 f.2)
      (firstFile (hydroFile oldNames isz keepEmpty f0.1 f0.2 ::
        fs.map fun f => hydroFile oldNames isz keepEmpty f.1 f.2).length P) r.val).flatMap
        (hydroOut env (hydroFile oldNames isz keepEmpty f0.1 f0.2).header false blank (List.finRange 6))).map Prod.fst =
      (HBT.seg (hydroFile oldNames isz keepEmpty f0.1 f0.2 ::
        fs.map fun f => hydroFile oldNames isz keepEmpty f.1 f.2)
      (firstFile (hydroFile oldNames isz keepEmpty f0.1 f0.2 ::
        fs.map fun f => hydroFile oldNames isz keepEmpty f.1 f.2).length P) r.val).flatMap
        (R.stored (hdfInt env.intBytes) blank.1) := by
    intro r
    rw [List.map_flatMap]
    simp only [stored_eq, hRe]
    rfl
  simp only [e]
  rw [segs_flatten _ _ hP, ← List.map_cons (f := fun f => hydroFile oldNames isz keepEmpty f.1 f.2) (a := f0),
    List.flatMap_map]
  rw [List.flatMap_def, List.flatMap_def]
  congr 1
  apply List.map_congr_left
  intro f hf
  exact written_stored R env.intBytes _ (hdfInt_fits _) _ _ _ _ _ _ (fun t p hp => (hids f hf t p hp).1)
    (fun t p hp => (hids f hf t p hp).2)

/-- C67, refused: a first file whose box size differs from the configured one. -/
theorem C67_wrong_box (env : HydroEnv K) (P : Nat) (hosts : Bool) (f0 : HydroFile K) (fs : List (HydroFile K))
    (hbox : f0.header.boxSize ≠ env.boxSize) (blank : HostedParticle K) :
    loadHydro env P hosts blank (f0 :: fs) = .abort := by
  unfold loadHydro readHydroHeader openHydro
  simp only [List.getElem?_cons_zero]
  rw [Outcome.bind_ok, if_neg hbox]
  rfl

/-- C67 (finding): fewer files than the first header says. The file that is not there is not noticed;
the counts read from it are whatever the memory held. -/
theorem C67_missing_file_finding (env : HydroEnv K) (P : Nat) (hosts : Bool) (f0 : HydroFile K) (fs : List (HydroFile K))
    (hbox : f0.header.boxSize = env.boxSize) (hn : (f0 :: fs).length < f0.header.numFiles) (blank : HostedParticle K) :
    loadHydro env P hosts blank (f0 :: fs) = .ub := by
  have hh : readHydroHeader env (f0 :: fs) = .ok f0.header := by
    unfold readHydroHeader openHydro
    simp only [List.getElem?_cons_zero]
    rw [Outcome.bind_ok, if_pos hbox]
  have ho : ∀ (files : List (HydroFile K)) (n i o : Nat), files.length < i + n → i ≤ files.length →
      hydroOffsets env files n i o = .ub := by
    intro files n
    induction n with
    | zero => intro i o h1 h2; omega
    | succ n ih =>
      intro i o h1 h2
      rw [hydroOffsets]
      by_cases hi : i < files.length
      · have e : openHydro files i = .ok files[i] := by
          unfold openHydro; rw [List.getElem?_eq_getElem hi]
        rw [e, Outcome.bind_ok]
        simp only
        rw [ih (i + 1) _ (by omega) (by omega)]
        rfl
      · have e : openHydro files i = .ub := by
          unfold openHydro; rw [List.getElem?_eq_none (by omega)]
        rw [e]
        rfl
  unfold loadHydro
  rw [hh, Outcome.bind_ok, ho _ _ 0 0 (by omega) (by omega)]
  rfl

/-! ### Groups -/

/-- The records of a file, type by type, for the model of C44. -/
def asRecords (env : HydroEnv K) (f : HydroFile K) : PartFile (HydroRecord K) :=
  (List.finRange 6).map fun t => (hydroCount env f t,
    if hydroCount env f t = 0 then some []
    else (f.parts t).map fun g => (List.range (hydroCount env f t)).map (g.record (hdfInt env.intBytes)))

/-- Every wanted type with particles has its datasets. -/
def Present (env : HydroEnv K) (f : HydroFile K) : Prop := ∀ t, hydroCount env f t ≠ 0 → f.parts t ≠ none

theorem asRecords_announced (env : HydroEnv K) (f : HydroFile K) (hp : Present env f) :
    ∀ t ∈ asRecords env f, (t.2.getD []).length = t.1 := by
  intro t ht
  obtain ⟨i, _, rfl⟩ := List.mem_map.mp ht
  simp only
  split
  · rename_i h; simp [h]
  · rename_i h
    cases e : f.parts i with
    | none => exact absurd e (hp i h)
    | some g => simp

theorem zipIdx_finRange {β γ : Type} (f : Fin 6 → β) (g : β → Nat → List γ) :
    (((List.finRange 6).map f).zipIdx 0).flatMap (fun t => g t.1 t.2) =
      (List.finRange 6).flatMap (fun t => g (f t) t.val) := by
  simp [List.finRange_succ]

/-- Loading a file field by field and loading its records give the same. -/
theorem hydroOut_records (env : HydroEnv K) (h : HydroHeader K) (blank : HostedParticle K) (f : HydroFile K)
    (hp : Present env f) :
    hydroOut env h true blank (List.finRange 6) f =
      ((fileRecords 0 (asRecords env f)).map fun x =>
        ((readingOf env h).particle (Fin.ofNat 6 x.1) x.2, hostOf x.2.group)).map fun x => (x.1, some x.2) := by
  unfold fileRecords asRecords
  rw [zipIdx_finRange (fun t => (hydroCount env f t,
    if hydroCount env f t = 0 then some []
    else (f.parts t).map fun g => (List.range (hydroCount env f t)).map (g.record (hdfInt env.intBytes))))
    (fun a n => (a.2.getD []).map (fun r => (n, r)))]
  rw [List.map_map, List.map_flatMap]
  unfold hydroOut
  congr 1
  funext t
  by_cases h0 : hydroCount env f t = 0
  · simp [h0]
  · simp only [if_neg h0]
    cases e : f.parts t with
    | none => exact absurd e (hp t h0)
    | some g =>
      simp [hydroSlot, Function.comp_def]

theorem hostedAll_some (l : List (SnapParticle K × Int)) :
    hostedAll (l.map fun x => (x.1, some x.2)) = .ok l := by
  induction l with
  | nil => rfl
  | cons a l ih => simp only [List.map_cons, hostedAll, ih, Outcome.bind_ok]

/-- Loading groups field by field is loading groups from records. -/
theorem loadHydroGroups_eq {I : Type} (env : HydroEnv K) (hb : env.intBytes = 4 ∨ env.intBytes = 8) {P : Nat} (hP : 0 < P)
    (chunksize : Nat) (fill : SnapParticle K) (so : ApostleSorts (SnapParticle K) I) (info : List (SnapParticle K) → I)
    (target : List I → Outcome Int) (f0 : HydroFile K) (fs : List (HydroFile K))
    (hn : f0.header.numFiles = (f0 :: fs).length) (hbox : f0.header.boxSize = env.boxSize)
    (hf : ∀ f ∈ f0 :: fs, f.Readable env.dmOnly false env.intBytes) (hpres : ∀ f ∈ f0 :: fs, Present env f)
    (blank : HostedParticle K) (hbl : blank.1.energy = none ∧ blank.1.type = none) (blank' : SnapParticle K × Int) :
    loadHydroGroups env P chunksize fill so info target blank (f0 :: fs) =
      loadApostleGroups P chunksize fill so
        (fun ty r => ((readingOf env f0.header).particle (Fin.ofNat 6 ty) r, hostOf r.group)) blank' info target
        ((f0 :: fs).map (asRecords env)) := by
  have ha : Announced ((f0 :: fs).map (asRecords env)) := by
    intro f hf'
    obtain ⟨g, hg, rfl⟩ := List.mem_map.mp hf'
    exact asRecords_announced env g (hpres g hg)
  unfold loadHydroGroups
  rw [loadHydro_ok env hb hP true f0 fs hn hbox hf blank hbl, Outcome.bind_ok]
  unfold loadApostleGroups
  rw [loadParticles_eq hP _ blank' _ ha, Outcome.bind_ok]
  have e : ∀ r : Fin P, hostedAll ((seg (f0 :: fs) (firstFile (f0 :: fs).length P) r.val).flatMap
      (hydroOut env f0.header true blank (List.finRange 6))) =
      .ok ((seg ((f0 :: fs).map (asRecords env)) (firstFile ((f0 :: fs).map (asRecords env)).length P) r.val).flatMap
        fun f => (fileRecords 0 f).map fun x =>
          ((readingOf env f0.header).particle (Fin.ofNat 6 x.1) x.2, hostOf x.2.group)) := by
    intro r
    rw [← hostedAll_some]
    congr 1
    rw [List.map_flatMap]
    unfold HBT.seg
    rw [← List.map_drop, ← List.map_take, List.flatMap_map, List.length_map, List.flatMap_def, List.flatMap_def]
    congr 1
    apply List.map_congr_left
    intro f hfm
    exact hydroOut_records env f0.header blank f (hpres f (List.mem_of_mem_drop (List.mem_of_mem_take hfm)))
  rw [allRanks_ok _ _ e, Outcome.bind_ok]
  rfl

/-- The records of a file written by a simulation are its wanted particles. -/
theorem written_records (env : HydroEnv K) (R : HydroReading K) (hR : R.dmOnly = env.dmOnly) (oldNames : Bool)
    (isz : Nat) (keepEmpty : Bool) (h : HydroHeader K) (parts : Fin 6 → List (HydroRecord K))
    (hids : ∀ t, ∀ p ∈ parts t, Fits env.intBytes p.id ∧ Fits env.intBytes p.group) :
    fileRecords 0 (asRecords env (hydroFile oldNames isz keepEmpty h parts)) =
      (R.wanted parts).map fun x => (x.1.val, x.2) := by
  unfold fileRecords asRecords
  rw [zipIdx_finRange (fun t => (hydroCount env (hydroFile oldNames isz keepEmpty h parts) t,
    if hydroCount env (hydroFile oldNames isz keepEmpty h parts) t = 0 then some []
    else ((hydroFile oldNames isz keepEmpty h parts).parts t).map fun g =>
      (List.range (hydroCount env (hydroFile oldNames isz keepEmpty h parts) t)).map (g.record (hdfInt env.intBytes))))
    (fun a n => (a.2.getD []).map (fun r => (n, r)))]
  unfold HydroReading.wanted
  rw [List.map_flatMap]
  congr 1
  funext t
  by_cases hd : env.dmOnly = true ∧ t ≠ 1
  · simp [hydroCount, hd, hR]
  · have hc : hydroCount env (hydroFile oldNames isz keepEmpty h parts) t = (parts t).length := by
      rw [hydroCount, if_neg hd]; rfl
    simp only [hc, hR, if_neg hd]
    by_cases h0 : (parts t).length = 0
    · rw [if_pos h0, List.length_eq_zero_iff.mp h0]; rfl
    · have hne : (parts t).isEmpty = false := by
        cases e : parts t with
        | nil => rw [e] at h0; simp at h0
        | cons _ _ => rfl
      rw [if_neg h0]
      simp only [hydroFile, hne, Bool.false_and, Bool.false_eq_true, if_false, Option.map_some, Option.getD_some,
        List.map_map]
      apply List.ext_getElem
      · simp
      · intro i h1 h2
        simp only [List.length_map, List.length_range] at h1 h2
        have e1 := hids t _ (List.getElem_mem h2)
        simp only [List.getElem_map, List.getElem_range, Function.comp_def]
        congr 1
        unfold HydroGroup.record
        cases oldNames <;> simp [entry, h2, hdfInt_fits _ _ e1.1, hdfInt_fits _ _ e1.2]

/-- C67, the groups of the files: every group number from 0 to 2^30-1 that occurs makes one halo, on one
process, with exactly the wanted particles of this number, as they are loaded. -/
theorem C67_groups (root : Nat → Nat → Nat) (hr : RootOk root) (env : HydroEnv K) (hb : env.intBytes = 4 ∨ env.intBytes = 8)
    (P : Nat) (hP : 0 < P) (chunksize : Nat)
    (hc : 0 < chunksize) (hmpi : P * (chunksize + 1) < 2 ^ 31) (fill : SnapParticle K)
    (so : ApostleSorts (SnapParticle K) (K × (Fin 3 → K))) (hso : SortsOk so) (com step : Fin 3 → K)
    (oldNames : Bool) (isz : Nat) (keepEmpty : Bool)
    (f0 : HydroHeader K × (Fin 6 → List (HydroRecord K))) (fs : List (HydroHeader K × (Fin 6 → List (HydroRecord K))))
    (hn : f0.1.numFiles = (f0 :: fs).length) (hbox : f0.1.boxSize = env.boxSize) (R : HydroReading K)
    (hR : R = { place := fun x => if env.periodic = true then positionModulus x env.boxSize else x
                velScale := env.sqrt f0.1.time
                massTable := f0.1.massTable
                dmOnly := env.dmOnly
                thermal := env.thermal })
    (hids : ∀ f ∈ f0 :: fs, ∀ t, ∀ p ∈ f.2 t, Fits env.intBytes p.id ∧ Fits env.intBytes p.group ∧ p.group ≤ 2 ^ 30)
    (blank : HostedParticle K) (hbl : blank.1.energy = none ∧ blank.1.type = none) :
    ∃ dims, closestFactors root P 3 = .ok dims ∧ ∃ out : Fin P → List (HaloRec Int (SnapParticle K)),
      loadHydroGroups env P chunksize fill so
        (fun l => averagePosition env.periodic env.boxSize com (l.map fun p => (p.mass, p.pos)))
        (reduceHaloRank env.periodic env.boxSize step (dims.map Int.ofNat)) blank
        ((f0 :: fs).map fun f => hydroFile oldNames isz keepEmpty f.1 f.2) = .ok out ∧
      (∀ r, (out r).Pairwise (fun a b => a.shell < b.shell)) ∧
      (∀ r r' h h', h ∈ out r → h' ∈ out r' → h.shell = h'.shell → r = r' ∧ h = h') ∧
      (∀ g, (∃ r, ∃ h ∈ out r, h.shell = g) ↔
        0 ≤ g ∧ g < 2 ^ 30 ∧ ∃ f ∈ f0 :: fs, ∃ x ∈ R.wanted f.2, x.2.group = g) ∧
      (∀ r, ∀ h ∈ out r, h.particles.Perm
        ((((f0 :: fs).flatMap fun f => R.wanted f.2).filter fun x => decide (x.2.group = h.shell)).map
          fun x => R.particle x.1 x.2)) := by
  have hRe : R = readingOf env f0.1 := by rw [hR]; unfold readingOf; rw [hbox]
  have hRd : R.dmOnly = env.dmOnly := by rw [hR]
  have hcons := List.map_cons (f := fun f : HydroHeader K × (Fin 6 → List (HydroRecord K)) =>
    hydroFile oldNames isz keepEmpty f.1 f.2) (a := f0) (l := fs)
  have hpres : ∀ f ∈ hydroFile oldNames isz keepEmpty f0.1 f0.2 ::
      fs.map (fun f => hydroFile oldNames isz keepEmpty f.1 f.2), Present env f := by
    intro f hf
    rw [← hcons] at hf
    obtain ⟨g, _, rfl⟩ := List.mem_map.mp hf
    intro t ht
    have : (g.2 t).isEmpty = false := by
      unfold hydroCount at ht
      split at ht
      · exact absurd rfl ht
      · cases e : g.2 t with
        | nil => simp [hydroFile, e] at ht
        | cons _ _ => rfl
    simp only [hydroFile, this, Bool.false_and, Bool.false_eq_true, if_false]
    simp
  have hrecs : records (((f0 :: fs).map fun f => hydroFile oldNames isz keepEmpty f.1 f.2).map (asRecords env)) =
      ((f0 :: fs).flatMap fun f => R.wanted f.2).map fun x => (x.1.val, x.2) := by
    have : records (((f0 :: fs).map fun f => hydroFile oldNames isz keepEmpty f.1 f.2).map (asRecords env)) =
      (((f0 :: fs).map fun f => hydroFile oldNames isz keepEmpty f.1 f.2).map (asRecords env)).flatMap (fileRecords 0) := rfl
    rw [this, List.map_map, List.flatMap_map, List.map_flatMap, List.flatMap_def, List.flatMap_def]
    congr 1
    apply List.map_congr_left
    intro f hf
    exact written_records env R hRd _ _ _ _ _ (fun t p hp => ⟨(hids f hf t p hp).1, (hids f hf t p hp).2.1⟩)
  have hann : Announced (((f0 :: fs).map fun f => hydroFile oldNames isz keepEmpty f.1 f.2).map (asRecords env)) := by
    intro f hf'
    obtain ⟨g, hg, rfl⟩ := List.mem_map.mp hf'
    rw [hcons] at hg
    exact asRecords_announced env g (hpres g hg)
  have hwanted : ∀ f ∈ f0 :: fs, ∀ x ∈ R.wanted f.2, x.2 ∈ f.2 x.1 := by
    intro f _ x hx
    unfold HydroReading.wanted at hx
    obtain ⟨t, _, ht⟩ := List.mem_flatMap.mp hx
    split at ht
    · simp at ht
    · obtain ⟨p, hp, rfl⟩ := List.mem_map.mp ht
      exact hp
  obtain ⟨dims, hd, out, h1, h2, h3, h4, h5⟩ := C44_groups (K := K) root hr P hP chunksize hc hmpi fill so hso
    (fun ty r => R.particle (Fin.ofNat 6 ty) r) HydroRecord.group (blank.1, 0) env.periodic env.boxSize com step
    (fun p => (p.mass, p.pos)) _ hann (by
      intro x hx
      rw [hrecs] at hx
      obtain ⟨y, hy, rfl⟩ := List.mem_map.mp hx
      obtain ⟨f, hf, hyf⟩ := List.mem_flatMap.mp hy
      exact (hids f hf _ _ (hwanted f hf y hyf)).2.2)
  refine ⟨dims, hd, out, ?_, h2, h3, ?_, ?_⟩
  · rw [hcons, loadHydroGroups_eq env hb hP chunksize fill so _ _ (hydroFile oldNames isz keepEmpty f0.1 f0.2)
      (fs.map fun f => hydroFile oldNames isz keepEmpty f.1 f.2) (by simp only [hydroFile]; simpa using hn) hbox (by
      intro f hf
      rw [← hcons] at hf
      obtain ⟨g, _, rfl⟩ := List.mem_map.mp hf
      exact written_readable _ _ _ _ _ (by simp) _ _ _) hpres blank hbl (blank.1, 0)]
    rw [hcons, hRe] at h1
    exact h1
  · intro g
    rw [h4 g, hrecs]
    constructor
    · rintro ⟨a, b, x, hx, e⟩
      obtain ⟨y, hy, rfl⟩ := List.mem_map.mp hx
      obtain ⟨f, hf, hyf⟩ := List.mem_flatMap.mp hy
      exact ⟨a, b, f, hf, y, hyf, e⟩
    · rintro ⟨a, b, f, hf, y, hyf, e⟩
      exact ⟨a, b, _, List.mem_map.mpr ⟨y, List.mem_flatMap.mpr ⟨f, hf, hyf⟩, rfl⟩, e⟩
  · intro r h hh
    have := h5 r h hh
    rw [hrecs, List.filter_map, List.map_map] at this
    refine this.trans (List.Perm.of_eq ?_)
    apply List.map_congr_left
    intro x _
    simp

/-- C67 (finding): files without group numbers are not refused. Their particles all come in one group with
number 0. -/
theorem C67_no_group_numbers_finding (root : Nat → Nat → Nat) (hr : RootOk root) (env : HydroEnv K)
    (hb : env.intBytes = 4 ∨ env.intBytes = 8) (P : Nat) (hP : 0 < P) (chunksize : Nat)
    (hc : 0 < chunksize) (hmpi : P * (chunksize + 1) < 2 ^ 31) (fill : SnapParticle K)
    (so : ApostleSorts (SnapParticle K) (K × (Fin 3 → K))) (hso : SortsOk so) (com step : Fin 3 → K)
    (f0 : HydroFile K) (fs : List (HydroFile K)) (hn : f0.header.numFiles = (f0 :: fs).length)
    (hbox : f0.header.boxSize = env.boxSize) (hf : ∀ f ∈ f0 :: fs, f.Readable env.dmOnly false env.intBytes)
    (hno : ∀ f ∈ f0 :: fs, ∀ t, f.npart t ≠ 0 → ∃ g, f.parts t = some g ∧ g.groupNumber = none)
    (hsome : ∃ f ∈ f0 :: fs, f.npart 1 ≠ 0)
    (blank : HostedParticle K) (hbl : blank.1.energy = none ∧ blank.1.type = none) :
    ∃ dims, closestFactors root P 3 = .ok dims ∧ ∃ out : Fin P → List (HaloRec Int (SnapParticle K)),
      loadHydroGroups env P chunksize fill so
        (fun l => averagePosition env.periodic env.boxSize com (l.map fun p => (p.mass, p.pos)))
        (reduceHaloRank env.periodic env.boxSize step (dims.map Int.ofNat)) blank (f0 :: fs) = .ok out ∧
      ∃ r h, h ∈ out r ∧ h.shell = 0 ∧
        h.particles.length = ((f0 :: fs).map fun f =>
          ((List.finRange 6).map fun t => if env.dmOnly = true ∧ t ≠ 1 then 0 else f.npart t).sum).sum ∧
        ∀ r' h', h' ∈ out r' → r' = r ∧ h' = h := by
  have hpres : ∀ f ∈ f0 :: fs, Present env f := by
    intro f hfm t ht
    obtain ⟨g, e, _⟩ := hno f hfm t (by
      unfold hydroCount at ht
      split at ht
      · exact absurd rfl ht
      · exact ht)
    rw [e]; simp
  have hann : Announced ((f0 :: fs).map (asRecords env)) := by
    intro f hf'
    obtain ⟨g, hg, rfl⟩ := List.mem_map.mp hf'
    exact asRecords_announced env g (hpres g hg)
  have hrec : records ((f0 :: fs).map (asRecords env)) = ((f0 :: fs).map (asRecords env)).flatMap (fileRecords 0) := rfl
  have hzero : ∀ x ∈ records ((f0 :: fs).map (asRecords env)), x.2.group = 0 := by
    intro x hx
    rw [hrec] at hx
    obtain ⟨pf, hpf, hx⟩ := List.mem_flatMap.mp hx
    obtain ⟨f, hfm, rfl⟩ := List.mem_map.mp hpf
    unfold fileRecords at hx
    obtain ⟨t, ht, hx⟩ := List.mem_flatMap.mp hx
    have ht' : t.1 ∈ asRecords env f := by
      have := List.mem_zipIdx' ht
      rw [this.2]
      exact List.getElem_mem _
    obtain ⟨i, _, e⟩ := List.mem_map.mp ht'
    rw [← e] at hx
    simp only at hx
    split at hx
    · simp at hx
    · rename_i h0
      obtain ⟨g, eg, eno⟩ := hno f hfm i (by
        unfold hydroCount at h0
        split at h0
        · exact absurd rfl h0
        · exact h0)
      rw [eg] at hx
      simp only [Option.map_some, Option.getD_some, List.map_map, List.mem_map] at hx
      obtain ⟨j, _, rfl⟩ := hx
      simp only [Function.comp_def, HydroGroup.record, eno, entry]
      exact hdfInt_zero _ hb
  have hlen : (records ((f0 :: fs).map (asRecords env))).length = ((f0 :: fs).map fun f =>
      ((List.finRange 6).map fun t => if env.dmOnly = true ∧ t ≠ 1 then 0 else f.npart t).sum).sum := by
    rw [hrec, List.flatMap_def, List.length_flatten, List.map_map, List.map_map]
    congr 1
    apply List.map_congr_left
    intro f hfm
    simp only [Function.comp_def]
    rw [fileRecords_length 0 _ (asRecords_announced env f (hpres f hfm))]
    unfold PartFile.np asRecords
    rw [List.map_map]
    rfl
  obtain ⟨dims, hd, out, h1, h2, h3, h4, h5⟩ := C44_groups (K := K) root hr P hP chunksize hc hmpi fill so hso
    (fun ty r => (readingOf env f0.header).particle (Fin.ofNat 6 ty) r) HydroRecord.group (blank.1, 0) env.periodic env.boxSize
    com step (fun p => (p.mass, p.pos)) _ hann (by
      intro x hx
      rw [hzero x hx]; decide)
  have hne : records ((f0 :: fs).map (asRecords env)) ≠ [] := by
    intro h0
    rw [h0] at hlen
    obtain ⟨f, hfm, hf1⟩ := hsome
    have := hlen.symm
    rw [List.length_nil, List.sum_eq_zero_iff] at this
    have h6 := this _ (List.mem_map.mpr ⟨f, hfm, rfl⟩)
    rw [List.sum_eq_zero_iff] at h6
    have h7 := h6 _ (List.mem_map.mpr ⟨1, List.mem_finRange _, rfl⟩)
    simp only [ne_eq, not_true_eq_false, and_false, if_false] at h7
    exact hf1 h7
  obtain ⟨x, hx⟩ := List.exists_mem_of_ne_nil _ hne
  obtain ⟨r, h, hh, hs⟩ := (h4 0).mpr ⟨le_refl _, by decide, x, hx, hzero x hx⟩
  refine ⟨dims, hd, out, ?_, r, h, hh, hs, ?_, ?_⟩
  · rw [loadHydroGroups_eq env hb hP chunksize fill so _ _ f0 fs hn hbox hf hpres blank hbl (blank.1, 0)]
    exact h1
  · rw [(h5 r h hh).length_eq, List.length_map, ← hlen]
    congr 1
    rw [List.filter_eq_self]
    intro y hy
    rw [hs, hzero y hy]; rfl
  · intro r' h' hh'
    obtain ⟨_, _, y, hy, e⟩ := (h4 h'.shell).mp ⟨r', h', hh', rfl⟩
    have := h3 r' r h' h hh' hh (by rw [hs, ← e, hzero y hy])
    exact this

/-- A file with ids wider than the program's integers: nothing happens if it has no wanted particles,
otherwise the program stops. -/
theorem wide_types (env : HydroEnv K) (hw : HydroHeader K) (f : HydroFile K) (hpres : Present env f)
    (hwide : ∀ t, hydroCount env f t ≠ 0 → ∀ g ∈ f.parts t, ∃ l, g.particleIDs = some l ∧ env.intBytes < l.1)
    (base : Nat) : ∀ (ts : List (Fin 6)) (off : List Nat) (buf : List (HostedParticle K)), ts.length ≤ off.length →
    readHydroTypes env hw false f base ts off buf =
      if ∀ t ∈ ts, hydroCount env f t = 0 then .ok buf else .abort
  | [], _, buf, _ => by simp [readHydroTypes]
  | t :: ts, [], buf, h => by simp at h
  | t :: ts, o :: off, buf, h => by
    rw [readHydroTypes]
    by_cases h0 : hydroCount env f t = 0
    · rw [if_pos h0, wide_types env hw f hpres hwide base ts off buf (by simpa using h)]
      simp [h0]
    · rw [if_neg h0, if_neg (by intro h; exact h0 (h t (by simp)))]
      cases e : f.parts t with
      | none => exact absurd e (hpres t h0)
      | some g =>
        obtain ⟨l, el, hl⟩ := hwide t h0 g e
        simp only
        unfold readHydroType
        rw [if_neg (by simp)]
        have : checkIdSize env g = .abort := by
          unfold checkIdSize
          rw [el]
          simp only
          rw [if_neg (by omega)]
        rw [this]
        rfl

theorem wide_files (env : HydroEnv K) (hw : HydroHeader K) (files : List (HydroFile K))
    (hpres : ∀ f ∈ files, Present env f)
    (hwide : ∀ f ∈ files, ∀ t, hydroCount env f t ≠ 0 → ∀ g ∈ f.parts t, ∃ l, g.particleIDs = some l ∧ env.intBytes < l.1)
    (skip : Nat) : ∀ (n iFile : Nat) (buf : List (HostedParticle K)), skip ≤ iFile → iFile + n ≤ files.length →
    readHydroFiles env hw false files (compileOffsets (files.map (hydroNp env))).1 skip n iFile buf =
      if ∀ f ∈ (files.drop iFile).take n, ∀ t ∈ List.finRange 6, hydroCount env f t = 0 then .ok buf else .abort
  | 0, iFile, buf, _, _ => by simp [readHydroFiles]
  | n + 1, iFile, buf, h1, h2 => by
    have hget : ∀ i, i < files.length → Outcome.get (compileOffsets (files.map (hydroNp env))).1 i
        = .ok (((files.map (hydroNp env)).take i).sum) := by
      intro i hi
      unfold Outcome.get compileOffsets
      rw [compileOffsetsFrom_get 0 _ i (by simpa using hi)]
      simp
    have hi : iFile < files.length := by omega
    have ho : openHydro files iFile = .ok files[iFile] := by
      unfold openHydro; rw [List.getElem?_eq_getElem hi]
    rw [readHydroFiles, hget _ hi, Outcome.bind_ok, hget _ (by omega), Outcome.bind_ok, ho, Outcome.bind_ok]
    have hsum : ((files.map (hydroNp env)).take iFile).sum = ((files.map (hydroNp env)).take skip).sum +
        (((files.map (hydroNp env)).drop skip).take (iFile - skip)).sum := by
      rw [← List.sum_append]
      congr 1
      conv_lhs => rw [show iFile = skip + (iFile - skip) by omega]
      rw [List.take_add]
    rw [if_neg (by omega)]
    unfold readHydroFile
    rw [wide_types env hw _ (hpres _ (List.getElem_mem hi)) (hwide _ (List.getElem_mem hi)) _ _ _ _
      (by simp [compileOffsets, compileOffsetsFrom_length])]
    have hdrop : files.drop iFile = files[iFile] :: files.drop (iFile + 1) := List.drop_eq_getElem_cons hi
    rw [hdrop, List.take_succ_cons]
    by_cases h0 : ∀ t ∈ List.finRange 6, hydroCount env files[iFile] t = 0
    · rw [if_pos h0, Outcome.bind_ok, wide_files env hw files hpres hwide skip n (iFile + 1) buf (by omega) (by omega)]
      simp only [List.mem_cons, forall_eq_or_imp]
      by_cases h3 : ∀ f ∈ (files.drop (iFile + 1)).take n, ∀ t ∈ List.finRange 6, hydroCount env f t = 0
      · rw [if_pos h3, if_pos ⟨h0, h3⟩]
      · rw [if_neg h3, if_neg (fun h => h3 h.2)]
    · rw [if_neg h0, if_neg (by
        intro h
        exact h0 (h _ (by simp)))]
      rfl

/-- C67, refused: ids wider than the program's integers. -/
theorem C67_wide_ids (env : HydroEnv K) (P : Nat) (hP : 0 < P) (oldNames : Bool) (isz : Nat) (hisz : env.intBytes < isz)
    (keepEmpty : Bool) (f0 : HydroHeader K × (Fin 6 → List (HydroRecord K)))
    (fs : List (HydroHeader K × (Fin 6 → List (HydroRecord K))))
    (hn : f0.1.numFiles = (f0 :: fs).length) (hbox : f0.1.boxSize = env.boxSize)
    (hsome : ∃ f ∈ f0 :: fs, ∃ t, (env.dmOnly = true → t = 1) ∧ f.2 t ≠ []) (blank : HostedParticle K) :
    loadHydro env P false blank ((f0 :: fs).map fun f => hydroFile oldNames isz keepEmpty f.1 f.2) = .abort := by
  have hcons := List.map_cons (f := fun f : HydroHeader K × (Fin 6 → List (HydroRecord K)) =>
    hydroFile oldNames isz keepEmpty f.1 f.2) (a := f0) (l := fs)
  have hne : ∀ (f : HydroHeader K × (Fin 6 → List (HydroRecord K))) (t : Fin 6),
      hydroCount env (hydroFile oldNames isz keepEmpty f.1 f.2) t ≠ 0 → (f.2 t).isEmpty = false := by
    intro f t ht
    unfold hydroCount at ht
    split at ht
    · exact absurd rfl ht
    · cases e : f.2 t with
      | nil => simp [hydroFile, e] at ht
      | cons _ _ => rfl
  have hh : readHydroHeader env ((f0 :: fs).map fun f => hydroFile oldNames isz keepEmpty f.1 f.2) = .ok f0.1 := by
    unfold readHydroHeader openHydro
    rw [hcons]
    simp only [List.getElem?_cons_zero]
    rw [Outcome.bind_ok, if_pos (show (hydroFile oldNames isz keepEmpty f0.1 f0.2).header.boxSize = _ from hbox)]
    rfl
  unfold loadHydro
  rw [hh, Outcome.bind_ok, hn, hydroOffsets_ok env _ _ 0 0 (by simp), Outcome.bind_ok, List.drop_zero]
  rw [List.map_fst_zip (by simp [compileOffsetsFrom_length]), List.map_snd_zip (by simp [compileOffsetsFrom_length])]
  have hfm : ∀ f ∈ (f0 :: fs).map fun f => hydroFile oldNames isz keepEmpty f.1 f.2, ∃ g ∈ f0 :: fs,
      f = hydroFile oldNames isz keepEmpty g.1 g.2 := by
    intro f hf
    obtain ⟨g, hg, e⟩ := List.mem_map.mp hf
    exact ⟨g, hg, e.symm⟩
  have hlen : (f0 :: fs).length = ((f0 :: fs).map fun f => hydroFile oldNames isz keepEmpty f.1 f.2).length := by simp
  rw [hlen]
  have hpres : ∀ f ∈ (f0 :: fs).map fun f => hydroFile oldNames isz keepEmpty f.1 f.2, Present env f := by
    intro f hf t ht
    obtain ⟨g, _, rfl⟩ := hfm f hf
    have := hne g t ht
    simp only [hydroFile, this, Bool.false_and, Bool.false_eq_true, if_false]
    simp
  have hwide : ∀ f ∈ (f0 :: fs).map fun f => hydroFile oldNames isz keepEmpty f.1 f.2, ∀ t, hydroCount env f t ≠ 0 →
      ∀ g ∈ f.parts t, ∃ l, g.particleIDs = some l ∧ env.intBytes < l.1 := by
    intro f hf t ht g hg
    obtain ⟨f', _, rfl⟩ := hfm f hf
    have := hne f' t ht
    simp only [hydroFile, this, Bool.false_and, Bool.false_eq_true, if_false, Option.mem_def, Option.some.injEq] at hg
    subst hg
    exact ⟨_, rfl, hisz⟩
  have hex : ∃ f ∈ (f0 :: fs).map fun f => hydroFile oldNames isz keepEmpty f.1 f.2, ∃ t, hydroCount env f t ≠ 0 := by
    obtain ⟨f, hf, t, ht, hp⟩ := hsome
    refine ⟨_, List.mem_map.mpr ⟨f, hf, rfl⟩, t, ?_⟩
    unfold hydroCount
    rw [if_neg (by rintro ⟨a, b⟩; exact b (ht a))]
    simpa [hydroFile] using hp
  generalize ((f0 :: fs).map fun f => hydroFile oldNames isz keepEmpty f.1 f.2) = files at *
  have key : ∀ (r : Fin P) (buf : List (HostedParticle K)), readHydroFiles env f0.1 false files
      (compileOffsets (files.map (hydroNp env))).1 (firstFile files.length P r.val)
      (firstFile files.length P (r.val + 1) - firstFile files.length P r.val) (firstFile files.length P r.val) buf =
      if ∀ f ∈ seg files (firstFile files.length P) r.val, ∀ t ∈ List.finRange 6, hydroCount env f t = 0
        then .ok buf else .abort := by
    intro r buf
    have h1 := firstFile_mono files.length P r.val
    have h2 : firstFile files.length P (r.val + 1) ≤ files.length := firstFile_le files.length hP r.isLt
    exact wide_files env f0.1 files hpres hwide _ _ _ buf (Nat.le_refl _) (by omega)
  apply allRanks_abort
  · intro r
    rw [assignTasks_ok r.val P files.length r.isLt, Outcome.bind_ok]
    simp only
    have := key r
    unfold compileOffsets firstFile at this
    rw [this]
    split
    · left; exact ⟨_, rfl⟩
    · right; rfl
  · obtain ⟨f, hf, t, ht⟩ := hex
    have hcover := segs_flatten files (fun f => [f]) hP
    have hf' : f ∈ files.flatMap fun f => [f] := List.mem_flatMap.mpr ⟨f, hf, by simp⟩
    rw [← hcover] at hf'
    obtain ⟨l, hl, hfl⟩ := List.mem_flatten.mp hf'
    obtain ⟨r, rfl⟩ := List.mem_ofFn.mp hl
    obtain ⟨g, hg, hfg⟩ := List.mem_flatMap.mp hfl
    simp only [List.mem_singleton] at hfg
    subst hfg
    refine ⟨r, ?_⟩
    rw [assignTasks_ok r.val P files.length r.isLt, Outcome.bind_ok]
    simp only
    have := key r
    have hneg : ¬ ∀ f ∈ seg files (firstFile files.length P) r.val, ∀ t ∈ List.finRange 6, hydroCount env f t = 0 :=
      fun h => ht (h f hg t (List.mem_finRange t))
    simp only [if_neg hneg] at this
    unfold compileOffsets firstFile at this
    rw [this]
    rfl

/-! ### The hypotheses are met -/

/-- A configuration: all types, energies, eight-byte integers, a periodic box of size 10. -/
def hydroExampleEnv : HydroEnv Rat where
  sqrt x := x
  dmOnly := false
  thermal := true
  intBytes := 8
  boxSize := 10
  periodic := true

/-- Two files with gas, dark matter and stars; the dark matter has a common mass. -/
def hydroExampleParts : List (HydroHeader Rat × (Fin 6 → List (HydroRecord Rat))) :=
  let h : HydroHeader Rat := ⟨2, 10, 1/2, 3/10, 7/10, fun t => if t = 1 then 5 else 0⟩
  [(h, fun t => if t = 0 then [⟨fun _ => 11, fun _ => 4, 7, 2, 3, 5⟩]
      else if t = 1 then [⟨fun _ => 1, fun _ => 2, 8, 0, 0, -1⟩, ⟨fun _ => -1, fun _ => 2, 9, 0, 0, 5⟩] else []),
   (h, fun t => if t = 4 then [⟨fun _ => 3, fun _ => 2, 10, 6, 0, 1073741824⟩] else [])]

/-- They meet the hypotheses of the theorems about written files. -/
example : ∃ f0 fs, hydroExampleParts = f0 :: fs ∧ f0.1.numFiles = (f0 :: fs).length ∧ f0.1.boxSize = hydroExampleEnv.boxSize ∧
    (∀ f ∈ f0 :: fs, ∀ t, ∀ p ∈ f.2 t, Fits 8 p.id ∧ Fits 8 p.group ∧ p.group ≤ 2 ^ 30) := by
  refine ⟨_, _, rfl, rfl, rfl, ?_⟩
  intro f hf
  simp only [List.mem_cons, List.not_mem_nil, or_false] at hf
  unfold Fits
  obtain rfl | rfl := hf <;> decide

/-- What their particles become in memory: the gas particle is placed in the box and keeps its own mass and
its energy; the dark matter particles have the common mass; the star keeps its own. -/
example :
    let R := readingOf hydroExampleEnv ⟨2, 10, 1/2, 3/10, 7/10, fun t => if t = 1 then 5 else 0⟩
    let ps := hydroExampleParts.flatMap fun f => (R.wanted f.2).map fun x => R.particle x.1 x.2
    ps.map (fun p => p.pos 0) = [1, 1, 9, 3] ∧ ps.map (fun p => p.vel 0) = [2, 1, 1, 1] ∧
    ps.map (fun p => p.id) = [7, 8, 9, 10] ∧ ps.map (fun p => p.mass) = [2, 5, 5, 6] ∧
    ps.map (fun p => p.type) = [some 0, some 1, some 1, some 4] ∧
    ps.map (fun p => p.energy) = [some 3, none, none, none] := by
  decide +kernel

/-- A file whose velocities are there but with one entry too few, and without group numbers: it can be
read, and the last velocity is zero. -/
example :
    let g : HydroGroup Rat := ⟨some [fun _ => 1, fun _ => 2], some [fun _ => 3], none, some (8, [1, 2]), none, none, none, none⟩
    let f : HydroFile Rat := ⟨⟨1, 10, 1/2, 3/10, 7/10, fun _ => 5⟩, fun t => if t = 1 then 2 else 0,
      fun t => if t = 1 then some g else none⟩
    f.Readable true true 8 ∧ (g.record id 1).vel 0 = 0 ∧ (g.record id 0).vel 0 = 3 ∧ g.groupNumber = none := by
  refine ⟨?_, by decide +kernel, by decide +kernel, rfl⟩
  intro t ht _ g hg
  simp only [ht rfl, if_true, Option.mem_def, Option.some.injEq] at hg ⊢
  subst hg
  refine ⟨⟨?_, ?_, ?_, ?_, ?_, ?_, ?_, ?_⟩, ?_⟩ <;> simp

end HBT.Props
