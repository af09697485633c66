import Verif.Spec.Cells
import Verif.Model.Input
import Verif.Props.Main
import Verif.Props.GadgetSnap
import Verif.Props.GroupBytes
import Verif.Props.Hydro
/-!
# C63: from the files of the simulation to the catalogue
-/
set_option linter.unusedSectionVars false
namespace HBT.Props
open HBT HBT.Model HBT.Spec HBT.MainLoop
variable {K D E S R Q : Type}

/-! ## What the files say -/

section
variable [Field Q] [LinearOrder Q] [IsStrictOrderedRing Q] [FloorRing Q]

/-- The HDF5 files `hf` are those in which a simulation has stored `ps`, for each file a header and the particles of the types; `isz` is the size
of ids in the files (the conditions of C67). `R` is how they are to be read. -/
structure HydroSays (g : GadgetEnv Q) (isz : Nat) (hf : List (HydroFile Q)) (R : HydroReading Q)
    (ps : List (HydroHeader Q × (Fin 6 → List (HydroRecord Q)))) : Prop where
  bytes : g.intBytes = 4 ∨ g.intBytes = 8
  stored : ∃ oldNames keepEmpty : Bool, hf = ps.map (fun f => hydroFile oldNames isz keepEmpty f.1 f.2)
  first : ∃ f0 fs, ps = f0 :: fs ∧ f0.1.numFiles = ps.length ∧ f0.1.boxSize = g.boxSize ∧
    R = { place := fun x => if g.periodic = true then positionModulus x g.boxSize else x
          velScale := g.sqrt f0.1.time
          massTable := f0.1.massTable
          dmOnly := g.dmOnly
          thermal := g.thermal }
  ids : ∀ f ∈ ps, ∀ t, ∀ p ∈ f.2 t, Fits g.intBytes p.id ∧ Fits g.intBytes p.group

/-- The files `f` of a snapshot hold the particles `ps`: they are snapshot files of the Gadget format, of either byte order, with
reals and ids of either size (the conditions of C57), or HDF5 files with ids that the program can hold. -/
inductive SnapshotSays (rd : Readers D S Q) (f : InputFiles Q) : List (Particle D) → Prop
  | gadget (fmt : rd.snapshotFormat = "gadget") (fe : Bool) (s isz : Nat) (hs : s = 4 ∨ s = 8)
      (hb : rd.gadget.intBytes = 4 ∨ rd.gadget.intBytes = 8)
      (hi : rd.gadget.hasId = true → (isz = 4 ∨ isz = 8) ∧ isz ≤ rd.gadget.intBytes ∧ rd.gadget.idRankStyle = false)
      (f0 : RawFile) (rfs : List RawFile) (hn : (f0 :: rfs).length < 2 ^ 31) (T : Reading Q)
      (hT : T = { real := if s = 4 then rd.gadget.real4 else rd.gadget.real8
                  dbl := rd.gadget.real8
                  place := fun x => if rd.gadget.periodic = true then positionModulus x rd.gadget.boxSize else x
                  velScale := rd.gadget.sqrt (rd.gadget.real8 f0.header.scaleFactor)
                  hasId := rd.gadget.hasId
                  dmOnly := rd.gadget.dmOnly
                  thermal := rd.gadget.thermal })
      (hall : ∀ g ∈ f0 :: rfs, g.Acceptable T rd.gadget.idUnsigned rd.gadget.intBytes s isz (f0 :: rfs).length ∧ g.Complete T)
      (hne : f0.all ≠ []) (hbox : rd.gadget.real8 f0.header.boxSize = rd.gadget.boxSize)
      (bytes : f.gadget = (f0 :: rfs).map (gadgetBytes fe rd.gadget.le isz rd.gadget.hasId fun w => decide (rd.gadget.real8 w = 0))) :
      SnapshotSays rd f ((T.files 0 (f0 :: rfs)).flatten.map (fun p => ⟨p.id, rd.data p⟩))
  | apostle (fmt : rd.snapshotFormat = "apostle") (isz : Nat) (width : isz ≤ rd.gadget.intBytes) (R : HydroReading Q)
      (ps : List (HydroHeader Q × (Fin 6 → List (HydroRecord Q)))) (holds : HydroSays rd.gadget isz f.hydro R ps) :
      SnapshotSays rd f ((ps.flatMap (fun f => R.wanted f.2)).map (fun x => ⟨x.2.id, rd.data (R.particle x.1 x.2)⟩))

/-- The files `f` hold the groups `gs`, given by their numbers and the ids of their particles: as a catalogue in one of the four Gadget
formats (the conditions of C62), or as a group number of each particle. -/
inductive GroupsSay (rd : Readers D S Q) (f : InputFiles Q) : List (Int × List Int) → Prop
  | gadget (v3 long : Bool) (fmt : rd.groupFormat = formatName v3 long) (rank : rd.gadget.idRankStyle = false) (fe : Bool) (p : Place)
      (files : List (RawGroups (idWidth long))) (stored : HBT.Spec.Stored f.groups p fe v3 files) (ok : ∀ g ∈ files, g.WellFormed)
      (few : files.length < 2 ^ 16) (lens : List Nat) (hl : lens = (files.map RawGroups.lens).flatten)
      (ids : List Int) (hi : ids = (files.map RawGroups.ids).flatten.map (idOf (rd.mask.setWidth (idWidth long))))
      (hsum : lens.sum = ids.length) :
      GroupsSay rd f ((catalogue lens ids).map (fun g => ((g.1 : Int), g.2)))
  | apostle (rest : String) (fmt : rd.groupFormat = "apostle" ++ rest) (isz : Nat) (R : HydroReading Q)
      (ps : List (HydroHeader Q × (Fin 6 → List (HydroRecord Q)))) (holds : HydroSays rd.gadget isz f.hydro R ps)
      (small : ∀ f ∈ ps, ∀ x ∈ R.wanted f.2, x.2.group ≤ 2 ^ 30) (gs : List (Int × List Int)) (distinct : (gs.map Prod.fst).Nodup)
      (which : ∀ g, g ∈ gs.map Prod.fst ↔ 0 ≤ g ∧ g < 2 ^ 30 ∧ ∃ f ∈ ps, ∃ x ∈ R.wanted f.2, x.2.group = g)
      (members : ∀ g ∈ gs, g.2.Perm (((ps.flatMap (fun f => R.wanted f.2)).filter (fun x => decide (x.2.group = g.1))).map (fun x => x.2.id))) :
      GroupsSay rd f gs

/-- Library functions, and the settings that follow from the format of the groups. -/
structure ReadersOk (b : Build K D S) (rd : Readers D S Q) : Prop where
  haloId : ∀ i, b.haloId (rd.newHalo i) = i
  sorts : SortsOk rd.sorts
  root : RootOk rd.root
  blank : rd.blank.energy = none ∧ rd.blank.type = none
  full : b.fullGroups = decide (rd.groupFormat = "apostle_particle_index")

/-- The files of the snapshots from `MinSnapshotIndex` to `last`: what they hold, and what is assumed of it. Particle ids are distinct
and not negative; particles stay in the simulation (or may disappear, in builds with gas and stars); groups consist of particles that are
there (which need not be assumed if both are read from the same files). -/
structure FilesOk (b : Build K D S) (rd : Readers D S Q) (files : Int → InputFiles Q) (last : Int)
    (parts : Int → List (Particle D)) (groups : Int → List (Int × List Int)) : Prop where
  parts_ : ∀ i, b.minIndex ≤ i → i ≤ last → SnapshotSays rd (files i) (parts i)
  groups_ : ∀ i, b.minIndex ≤ i → i ≤ last → GroupsSay rd (files i) (groups i)
  distinct : ∀ i, b.minIndex ≤ i → i ≤ last → ((parts i).map Particle.id).Nodup
  nonneg : ∀ i, b.minIndex ≤ i → i ≤ last → ∀ p ∈ parts i, 0 ≤ p.id
  stay : ∀ i, b.minIndex ≤ i → i < last → ∀ p ∈ parts i, Known b.dmOnly ((parts (i + 1)).map Particle.id) p.id
  members : ∀ i, b.minIndex ≤ i → i ≤ last → ¬ (rd.snapshotFormat = "apostle" ∧ ∃ rest, rd.groupFormat = "apostle" ++ rest) →
    ∀ g ∈ groups i, ∀ x ∈ g.2, if b.fullGroups then x ∈ (parts i).map Particle.id else Known b.dmOnly ((parts i).map Particle.id) x

/-- A number of processes the program can run with: not so many that counts overflow, not more than there are particles, and, with
a Gadget group catalogue, not more than there are particles in groups (unless there are none). -/
structure ProcsOk (b : Build K D S) (rd : Readers D S Q) (last : Int) (parts : Int → List (Particle D))
    (groups : Int → List (Int × List Int)) (P : Nat) : Prop where
  pos : 0 < P
  few : P * (b.chunk + 1) < 2 ^ 31
  enough : ∀ i, b.minIndex ≤ i → i ≤ last → P ≤ (parts i).length
  grouped : (∃ v3 long, rd.groupFormat = formatName v3 long) → ∀ i, b.minIndex ≤ i → i ≤ last →
    ((groups i).flatMap Prod.snd).length = 0 ∨ P ≤ ((groups i).flatMap Prod.snd).length

end

/-- Schedules that run every iteration once, and any gravity solver. -/
structure WorldOk [LE E] {P : Nat} (b : Build K D S) (w : SnapInput K D E S R P) : Prop where
  tableOrder : ∀ r l, (w.tableOrder r l).Perm l
  feedOrder : ∀ r l, (w.feedOrder r l).Perm l
  nestOrder : ∀ r l, (w.nestOrder r l).Perm l
  maskOrder : ∀ r l, (w.maskOrder r l).Perm l
  hostOrder : ∀ r l, (w.hostOrder r l).Perm l
  loneOrder : ∀ r l, (w.loneOrder r l).Perm l
  mergeOrder : ∀ r l, (w.mergeOrder r l).Perm l
  eachOrder : ∀ r l, (w.eachOrder r l).Perm l
  env : ∀ r st i, EnvOk (w.env r st i) ∧ (w.env r st i).mass = b.mass
  env' : ∀ r st i, EnvOk (w.env' r st i) ∧ (w.env' r st i).mass = b.mass

/-- One snapshot after the other from `a` on, with the order in which files are written, in which each process writes both of its
files. -/
inductive Worlds [LE E] (b : Build K D S) {P : Nat} : Int → List (SnapInput K D E S R P × List (WriteOp P)) → Prop
  | nil (a : Int) : Worlds b a []
  | cons {a : Int} {w : SnapInput K D E S R P} {ops : List (WriteOp P)} {xs : List (SnapInput K D E S R P × List (WriteOp P))}
      (snap : w.snap = a) (ok : WorldOk b w) (ops_ : ∀ r, .sub r ∈ ops ∧ .src r ∈ ops) (rest : Worlds b (a + 1) xs) :
      Worlds b a ((w, ops) :: xs)

/-- The directories after any number of sessions, and the number of snapshots that are complete. At first the directories hold
anything. A session may begin at any snapshot up to the first that is not complete, with any (suitable) number of processes; it is killed
after any number of snapshots, and the directory of the next snapshot then holds anything. -/
inductive FileReach [LE K] [DecidableLE K] [LT K] [DecidableLT K] [MassSum K] [Mul K] [LT R] [DecidableLT R] [LE E] [LT E]
    [DecidableLT E] [Zero E] [Field Q] [LinearOrder Q] [IsStrictOrderedRing Q] [FloorRing Q] (b : Build K D S) (rd : Readers D S Q)
    (files : Int → InputFiles Q) (last : Int) (parts : Int → List (Particle D)) (groups : Int → List (Int × List Int)) :
    (Int → Disk K D) → Nat → Prop
  | start (disks : Int → Disk K D) : FileReach b rd files last parts groups disks 0
  | session {disks : Int → Disk K D} {m : Nat} (h : FileReach b rd files last parts groups disks m) {P : Nat}
      (hP : ProcsOk b rd last parts groups P) {n : Nat} (hn : n ≤ m) {xs : List (SnapInput K D E S R P × List (WriteOp P))}
      (hx : Worlds b (b.minIndex + n) xs) (hlast : b.minIndex + n + xs.length ≤ last + 1)
      {st st' : Fin P → List (Sub K D)} {disks' : Int → Disk K D} (e : launch P b (b.minIndex + n) disks = .ok st)
      (e' : fileSession b rd files xs st disks = .ok (st', disks')) (junk : Disk K D) :
      FileReach b rd files last parts groups (fun i => if i = b.minIndex + n + xs.length then junk else disks' i) (n + xs.length)

/-! ## Reading -/

theorem cut_flatten {α : Type} : ∀ (lens : List Nat) (l : List α), lens.sum = l.length → (cut lens l).flatten = l
  | [], l, h => by
    have : l = [] := List.eq_nil_of_length_eq_zero (by simpa using h.symm)
    rw [this]
    rfl
  | n :: ns, l, h => by
    rw [List.sum_cons] at h
    rw [cut, List.flatten_cons, cut_flatten ns (l.drop n) (by rw [List.length_drop]; omega), List.take_append_drop]

theorem catalogue_members {α : Type} (lens : List Nat) (ids : List α) (h : lens.sum = ids.length) :
    (catalogue lens ids).flatMap Prod.snd = ids := by
  unfold catalogue
  rw [List.flatMap_map]
  have : (cut lens ids).zipIdx.flatMap (fun x => x.1) = ((cut lens ids).zipIdx.map Prod.fst).flatten := by rw [List.flatMap_def]
  show (cut lens ids).zipIdx.flatMap (fun x => x.1) = ids
  rw [this, List.zipIdx_map_fst, cut_flatten _ _ h]

theorem catalogue_fst {α : Type} (lens : List Nat) (ids : List α) : (catalogue lens ids).map Prod.fst = List.range (cut lens ids).length := by
  unfold catalogue
  rw [List.map_map, List.range_eq_range']
  exact List.zipIdx_map_snd 0 _

section
variable [Field Q] [LinearOrder Q] [IsStrictOrderedRing Q] [FloorRing Q]

/-- What the files of `HydroSays` are for the lemmas about the reader. -/
theorem HydroSays.facts {g : GadgetEnv Q} {isz : Nat} {hf : List (HydroFile Q)} {R : HydroReading Q}
    {ps : List (HydroHeader Q × (Fin 6 → List (HydroRecord Q)))} (h : HydroSays g isz hf R ps) :
    ∃ h0 hs, hf = h0 :: hs ∧ h0.header.numFiles = hf.length ∧ h0.header.boxSize = g.boxSize ∧ R = readingOf (hydroEnv g) h0.header ∧
      (∀ f ∈ hf, f.Readable g.dmOnly false g.intBytes) ∧ (isz ≤ g.intBytes → ∀ f ∈ hf, f.Readable g.dmOnly true g.intBytes) ∧
      (∀ f ∈ hf, Present (hydroEnv g) f) ∧ Announced (hf.map (asRecords (hydroEnv g))) ∧
      records (hf.map (asRecords (hydroEnv g))) = (ps.flatMap (fun f => R.wanted f.2)).map (fun x => (x.1.val, x.2)) := by
  obtain ⟨oldNames, keepEmpty, hst⟩ := h.stored
  obtain ⟨f0, fs, hps, hn, hbox, hR⟩ := h.first
  have hpres : ∀ f ∈ hf, Present (hydroEnv g) f := by
    intro f hfm
    rw [hst] at hfm
    obtain ⟨q, _, rfl⟩ := List.mem_map.1 hfm
    intro t ht
    have : (q.2 t).isEmpty = false := by
      unfold hydroCount at ht
      split at ht
      · exact absurd rfl ht
      · cases e : q.2 t with
        | nil => simp [hydroFile, e] at ht
        | cons _ _ => rfl
    simp only [hydroFile, this, Bool.false_and, Bool.false_eq_true, if_false]
    simp
  refine ⟨hydroFile oldNames isz keepEmpty f0.1 f0.2, fs.map (fun f => hydroFile oldNames isz keepEmpty f.1 f.2), ?_, ?_, hbox, ?_, ?_, ?_, hpres, ?_, ?_⟩
  · rw [hst, hps, List.map_cons]
  · rw [hst, List.length_map]
    exact hn
  · rw [hR]
    show _ = readingOf (hydroEnv g) f0.1
    unfold readingOf
    rw [hbox]
    rfl
  · intro f hfm
    rw [hst] at hfm
    obtain ⟨q, _, rfl⟩ := List.mem_map.1 hfm
    exact written_readable _ _ _ _ _ (by simp) _ _ _
  · intro hisz f hfm
    rw [hst] at hfm
    obtain ⟨q, _, rfl⟩ := List.mem_map.1 hfm
    exact written_readable _ _ _ _ _ (fun _ => hisz) _ _ _
  · intro f hfm
    obtain ⟨q, hq, rfl⟩ := List.mem_map.1 hfm
    exact asRecords_announced (hydroEnv g) q (hpres q hq)
  · have e : records (hf.map (asRecords (hydroEnv g))) = (hf.map (asRecords (hydroEnv g))).flatMap (fileRecords 0) := rfl
    rw [e, hst, List.map_map, List.flatMap_map, List.map_flatMap, List.flatMap_def, List.flatMap_def]
    congr 1
    apply List.map_congr_left
    intro f hfm
    exact written_records (hydroEnv g) R (by rw [hR]; rfl) _ _ _ _ _ (h.ids f hfm)

/-- Files determine the particles they hold. -/
theorem HydroSays.unique {g : GadgetEnv Q} {isz isz' : Nat} {hf : List (HydroFile Q)} {R R' : HydroReading Q}
    {ps ps' : List (HydroHeader Q × (Fin 6 → List (HydroRecord Q)))} (h : HydroSays g isz hf R ps) (h' : HydroSays g isz' hf R' ps') :
    R = R' ∧ ps.flatMap (fun f => R.wanted f.2) = ps'.flatMap (fun f => R'.wanted f.2) := by
  obtain ⟨h0, hs, e, _, _, hR, _, _, _, _, hrec⟩ := h.facts
  obtain ⟨h0', hs', e', _, _, hR', _, _, _, _, hrec'⟩ := h'.facts
  rw [e] at e'
  injection e' with e1 e2
  subst e1
  refine ⟨by rw [hR, hR'], ?_⟩
  rw [hrec] at hrec'
  refine List.map_injective_iff.2 ?_ hrec'
  rintro ⟨a, b⟩ ⟨c, d⟩ he
  simp only [Prod.mk.injEq] at he
  rw [Fin.ext he.1, he.2]

theorem gridStep_ok (boxsize : Q) {dims : List Nat} (h : dims.length = 3) : ∃ step, gridStep boxsize dims = .ok step := by
  match dims, h with
  | [a, b, c], _ => exact ⟨_, rfl⟩

theorem readParts_ok {rd : Readers D S Q} {f : InputFiles Q} {ps : List (Particle D)} (h : SnapshotSays rd f ps)
    (hbl : rd.blank.energy = none ∧ rd.blank.type = none) {P : Nat} (hP : 0 < P) : ∃ out, readParts P rd f = .ok out ∧ allParticles out = ps := by
  cases h with
  | gadget fmt fe s isz hs hb hi f0 rfs hn T hT hall hne hbox bytes =>
    obtain ⟨out, e, he⟩ := C57_complete rd.gadget fe P s isz hP hs hb hi f0 rfs hn T hT hall hne hbox
    refine ⟨_, by rw [readParts, if_pos fmt, bytes, e, Outcome.bind_ok], ?_⟩
    rw [← he, List.map_flatten, List.map_ofFn]
    rfl
  | apostle fmt isz width R ps holds =>
    obtain ⟨oldNames, keepEmpty, hst⟩ := holds.stored
    obtain ⟨f0, fs, hps, hn, hbox, hR⟩ := holds.first
    have hids := holds.ids
    rw [hps] at hn hids
    obtain ⟨out, e, he⟩ := C67_written (hydroEnv rd.gadget) holds.bytes P hP oldNames isz width keepEmpty f0 fs hn hbox R hR hids (rd.blank, none) hbl
    refine ⟨fun r => (out r).2.map (fun p => rd.particle p.1), ?_, ?_⟩
    · rw [readParts, if_neg (by rw [fmt]; decide), if_pos fmt, hst, hps, e, Outcome.bind_ok]
    · show (List.ofFn fun r => (out r).2.map (fun p => rd.particle p.1)).flatten = _
      have : (List.ofFn fun r => (out r).2.map (fun p => rd.particle p.1)) = (List.ofFn fun r => (out r).2.map Prod.fst).map (List.map rd.particle) := by
        rw [List.map_ofFn]
        congr 1
        funext r
        simp [Function.comp_def]
      rw [this, ← List.map_flatten, he, hps, List.map_flatMap, List.map_flatMap]
      congr 1
      funext x
      rw [List.map_map]
      rfl

theorem isGadget_name (v3 long : Bool) : isGadgetGroup (formatName v3 long) = true := by
  cases v3 <;> cases long <;> decide

theorem isApostle_name (rest : String) : isGadgetGroup ("apostle" ++ rest) = false ∧ isApostleGroup ("apostle" ++ rest) = true := by
  unfold isGadgetGroup isApostleGroup
  rw [String.toList_append]
  have h : "apostle".toList = ['a', 'p', 'o', 's', 't', 'l', 'e'] := by decide
  have h' : "gadget".toList = ['g', 'a', 'd', 'g', 'e', 't'] := by decide
  rw [h, h']
  simp

/-- What is true of the groups on the processes after reading. -/
structure GroupsRead {P : Nat} (b : Build K D S) (rd : Readers D S Q) (f : InputFiles Q) (gs : List (Int × List Int))
    (halos : Fin P → List (HaloRec S (Particle D))) : Prop where
  distinct : ((List.ofFn halos).flatten.map (fun h => b.haloId h.shell)).Nodup
  nonneg : ∀ r, ∀ h ∈ halos r, 0 ≤ b.haloId h.shell
  sound : ∀ r, ∀ h ∈ halos r, ∃ g ∈ gs, g.1 = b.haloId h.shell ∧ (h.particles.map Particle.id).Perm g.2
  complete : ∀ g ∈ gs, g.2 ≠ [] → ∃ r, ∃ h ∈ halos r, g.1 = b.haloId h.shell
  records : isGadgetGroup rd.groupFormat = false → ∀ r, ∀ h ∈ halos r, ∀ p ∈ h.particles, ∃ isz R ps, HydroSays rd.gadget isz f.hydro R ps ∧
    ∃ x ∈ ps.flatMap (fun f => R.wanted f.2), p = ⟨x.2.id, rd.data (R.particle x.1 x.2)⟩

theorem readHalos_ok {b : Build K D S} (havg : ∀ h, (b.average h).particles = h.particles ∧ b.haloId (b.average h).shell = b.haloId h.shell)
    (hc : 0 < b.chunk) {rd : Readers D S Q} (hrd : ReadersOk b rd) {f : InputFiles Q}
    {gs : List (Int × List Int)} (h : GroupsSay rd f gs) {P : Nat} (hP : 0 < P) (few : P * (b.chunk + 1) < 2 ^ 31)
    (hen : (∃ v3 long, rd.groupFormat = formatName v3 long) → (gs.flatMap Prod.snd).length = 0 ∨ P ≤ (gs.flatMap Prod.snd).length) :
    ∃ out, readHalos P b rd f = .ok out ∧ GroupsRead b rd f gs out := by
  cases h with
  | gadget v3 long fmt rank fe p files stored ok few' lens hl ids hi hsum =>
    have e0 : ((catalogue lens ids).map (fun g => ((g.1 : Int), g.2))).flatMap Prod.snd = ids := by
      rw [List.flatMap_map]
      exact catalogue_members lens ids hsum
    have hen' := hen ⟨v3, long, fmt⟩
    rw [e0] at hen'
    obtain ⟨out, e, m, h2, h3⟩ := C62_files rd.gadget.le fe v3 long rd.mask P hP f.groups p files stored ok few' lens hl ids hi hsum hen'
    have hall : (List.ofFn (fun r => (out r).map (fun g => (⟨rd.newHalo g.1, g.2.map (fun i => ⟨i, rd.data rd.blank⟩)⟩ : HaloRec S (Particle D))))).flatten
        = (List.ofFn out).flatten.map (fun g => ⟨rd.newHalo g.1, g.2.map (fun i => ⟨i, rd.data rd.blank⟩)⟩) := by
      rw [List.map_flatten, List.map_ofFn]
      rfl
    have hsound : ∀ r, ∀ g ∈ out r, g ∈ ((catalogue lens ids).take m).map (fun g => ((g.1 : Int), g.2)) := by
      intro r g hg
      rw [← h2]
      exact List.mem_flatten.2 ⟨out r, (List.mem_ofFn' _ _).2 ⟨r, rfl⟩, hg⟩
    refine ⟨fun r => (out r).map (fun g => ⟨rd.newHalo g.1, g.2.map (fun i => ⟨i, rd.data rd.blank⟩)⟩), ?_, ?_⟩
    · rw [readHalos, fmt, if_pos (isGadget_name v3 long), rank, e, Outcome.bind_ok]
    · refine ⟨?_, ?_, ?_, ?_, ?_⟩
      · rw [hall, List.map_map]
        have : ((fun h : HaloRec S (Particle D) => b.haloId h.shell) ∘ fun g : Int × List Int => ⟨rd.newHalo g.1, g.2.map (fun i => ⟨i, rd.data rd.blank⟩)⟩)
            = Prod.fst := by
          funext g
          exact hrd.haloId g.1
        rw [this, h2, List.map_map]
        have : (Prod.fst ∘ fun g : Nat × List Int => ((g.1 : Int), g.2)) = (fun n : Nat => (n : Int)) ∘ Prod.fst := rfl
        rw [this, ← List.map_map, List.map_take, catalogue_fst]
        exact ((List.nodup_range).sublist (List.take_sublist _ _)).map (fun a b h => by exact_mod_cast h)
      · intro r h hh
        obtain ⟨g, hg, rfl⟩ := List.mem_map.1 hh
        obtain ⟨g', _, rfl⟩ := List.mem_map.1 (hsound r g hg)
        show 0 ≤ b.haloId (rd.newHalo _)
        rw [hrd.haloId]
        exact Int.natCast_nonneg _
      · intro r h hh
        obtain ⟨g, hg, rfl⟩ := List.mem_map.1 hh
        refine ⟨g, ?_, (hrd.haloId g.1).symm, ?_⟩
        · have := hsound r g hg
          rw [List.map_take] at this
          exact List.mem_of_mem_take this
        · rw [List.map_map]
          exact List.Perm.of_eq (List.map_id' _)
      · intro g hg hne
        obtain ⟨g', hg', rfl⟩ := List.mem_map.1 hg
        have : g' ∈ (catalogue lens ids).take m := by
          rw [← List.take_append_drop m (catalogue lens ids)] at hg'
          exact (List.mem_append.1 hg').resolve_right (fun h => hne (h3 g' h))
        have h4 : ((g'.1 : Int), g'.2) ∈ (List.ofFn out).flatten := by
          rw [h2]
          exact List.mem_map_of_mem (f := fun g : Nat × List Int => ((g.1 : Int), g.2)) this
        obtain ⟨l, hl, h5⟩ := List.mem_flatten.1 h4
        obtain ⟨r, rfl⟩ := (List.mem_ofFn' _ _).1 hl
        exact ⟨r, _, List.mem_map.2 ⟨_, h5, rfl⟩, (hrd.haloId _).symm⟩
      · intro hgad
        rw [fmt, isGadget_name] at hgad
        cases hgad
  | apostle rest fmt isz R ps holds small gs distinct which members =>
    obtain ⟨h0, hs, e0, hn, hbox, hR, hread, _, hpres, hann, hrec⟩ := holds.facts
    obtain ⟨dims, hd, hlen, _⟩ := C03_factors rd.root hrd.root P 3 hP (by omega)
    obtain ⟨step, hstep⟩ := gridStep_ok rd.gadget.boxSize hlen
    obtain ⟨dims', hd', _, hcells⟩ := C03_decomposition rd.root hrd.root P hP step
    rw [hd] at hd'
    injection hd' with hd'
    subst hd'
    obtain ⟨out, e, h1, h2, h3, h4, _⟩ := apostle_core P hP b.chunk hc few rd.blank rd.sorts hrd.sorts
      (fun ty r => R.particle (Fin.ofNat 6 ty) r) HydroRecord.group
      (rd.blank, 0) (fun l => averagePosition rd.gadget.periodic rd.gadget.boxSize rd.com (l.map (fun p => (p.mass, p.pos))))
      (reduceHaloRank rd.gadget.periodic rd.gadget.boxSize step (dims.map Int.ofNat))
      (fun xs _ => by
        obtain ⟨r, a, b, c⟩ := hcells (reduceHaloPosition rd.gadget.periodic rd.gadget.boxSize (fun _ => 0) xs).2
        exact ⟨⟨r.toNat, by omega⟩, by rw [reduceHaloRank, a]; simp; omega⟩) _ hann (by
        intro x hx
        rw [hrec] at hx
        obtain ⟨y, hy, rfl⟩ := List.mem_map.1 hx
        obtain ⟨q, hq, hyq⟩ := List.mem_flatMap.1 hy
        exact small q hq y hyq)
    have eload := loadHydroGroups_eq (hydroEnv rd.gadget) holds.bytes hP b.chunk rd.blank rd.sorts
      (fun l => averagePosition rd.gadget.periodic rd.gadget.boxSize rd.com (l.map (fun p => (p.mass, p.pos))))
      (reduceHaloRank rd.gadget.periodic rd.gadget.boxSize step (dims.map Int.ofNat)) h0 hs (by rw [← e0]; exact hn) hbox
      (by rw [← e0]; exact hread) (by rw [← e0]; exact hpres) (rd.blank, none) hrd.blank (rd.blank, 0)
    rw [← e0, ← hR, e] at eload
    have h3 : ∀ g, (∃ r, ∃ h ∈ out r, h.shell = g) ↔ 0 ≤ g ∧ g < 2 ^ 30 ∧ ∃ f ∈ ps, ∃ x ∈ R.wanted f.2, x.2.group = g := by
      intro g
      rw [h3 g, hrec]
      constructor
      · rintro ⟨a, b, x, hx, e⟩
        obtain ⟨y, hy, rfl⟩ := List.mem_map.1 hx
        obtain ⟨q, hq, hyq⟩ := List.mem_flatMap.1 hy
        exact ⟨a, b, q, hq, y, hyq, e⟩
      · rintro ⟨a, b, q, hq, y, hyq, e⟩
        exact ⟨a, b, _, List.mem_map.2 ⟨y, List.mem_flatMap.2 ⟨q, hq, hyq⟩, rfl⟩, e⟩
    have h4 : ∀ r, ∀ h ∈ out r, h.particles.Perm (((ps.flatMap (fun f => R.wanted f.2)).filter (fun x => decide (x.2.group = h.shell))).map
        (fun x => R.particle x.1 x.2)) := by
      intro r h hh
      have := h4 r h hh
      rw [hrec, List.filter_map, List.map_map] at this
      refine this.trans (List.Perm.of_eq ?_)
      apply List.map_congr_left
      intro x _
      simp
    have hid : ∀ h : HaloRec Int (SnapParticle Q), b.haloId (b.average ⟨rd.newHalo h.shell, h.particles.map rd.particle⟩).shell = h.shell := by
      intro h
      rw [(havg _).2]
      exact hrd.haloId _
    have hmem : ∀ r, ∀ h ∈ out r, ∃ g ∈ gs, g.1 = h.shell := by
      intro r h hh
      obtain ⟨g, hg, e⟩ := List.mem_map.1 ((which h.shell).2 ((h3 h.shell).1 ⟨r, h, hh, rfl⟩))
      exact ⟨g, hg, e⟩
    have hall : (List.ofFn (fun r => (out r).map (fun h => b.average ⟨rd.newHalo h.shell, h.particles.map rd.particle⟩))).flatten
        = (List.ofFn out).flatten.map (fun h => b.average ⟨rd.newHalo h.shell, h.particles.map rd.particle⟩) := by
      rw [List.map_flatten, List.map_ofFn]
      rfl
    refine ⟨fun r => (out r).map (fun h => b.average ⟨rd.newHalo h.shell, h.particles.map rd.particle⟩), ?_, ?_⟩
    · rw [readHalos, fmt, (isApostle_name rest).1, (isApostle_name rest).2, if_neg Bool.false_ne_true, if_pos rfl]
      rw [hd, Outcome.bind_ok, hstep, Outcome.bind_ok, eload, Outcome.bind_ok]
    · refine ⟨?_, ?_, ?_, ?_, ?_⟩
      · rw [hall, List.map_map]
        have : ((fun h : HaloRec S (Particle D) => b.haloId h.shell) ∘ fun h : HaloRec Int (SnapParticle Q) => b.average ⟨rd.newHalo h.shell, h.particles.map rd.particle⟩)
            = HaloRec.shell := by
          funext h
          exact hid h
        rw [this, List.map_flatten, List.map_ofFn, List.nodup_flatten]
        refine ⟨?_, ?_⟩
        · intro l hl
          obtain ⟨r, rfl⟩ := (List.mem_ofFn' _ _).1 hl
          show ((out r).map HaloRec.shell).Nodup
          rw [List.Nodup, List.pairwise_map]
          exact (h1 r).imp (fun h => by omega)
        · rw [List.pairwise_ofFn]
          intro i j hij x hx hy
          obtain ⟨h, hh, rfl⟩ := List.mem_map.1 hx
          obtain ⟨h', hh', e⟩ := List.mem_map.1 hy
          have := (h2 i j h h' hh hh' e.symm).1
          omega
      · intro r h hh
        obtain ⟨g, hg, rfl⟩ := List.mem_map.1 hh
        rw [hid]
        exact ((h3 g.shell).1 ⟨r, g, hg, rfl⟩).1
      · intro r h hh
        obtain ⟨g, hg, rfl⟩ := List.mem_map.1 hh
        obtain ⟨k, hk, e⟩ := hmem r g hg
        refine ⟨k, hk, by rw [hid]; exact e, ?_⟩
        rw [(havg _).1]
        have m1 := members k hk
        have m2 := (h4 r g hg).map (fun p => (rd.particle p).id)
        rw [List.map_map] at m2
        show ((g.particles.map rd.particle).map Particle.id).Perm _
        rw [List.map_map]
        rw [e] at m1
        exact m2.trans m1.symm
      · intro g hg _
        obtain ⟨r, h, hh, e⟩ := (h3 g.1).2 ((which g.1).1 (List.mem_map_of_mem hg))
        exact ⟨r, _, List.mem_map.2 ⟨h, hh, rfl⟩, by rw [hid]; exact e.symm⟩
      · intro _ r h hh p hp
        obtain ⟨g, hg, rfl⟩ := List.mem_map.1 hh
        rw [(havg _).1] at hp
        obtain ⟨q, hq, rfl⟩ := List.mem_map.1 hp
        obtain ⟨x, hx, rfl⟩ := List.mem_map.1 ((h4 r g hg).mem_iff.1 hq)
        exact ⟨isz, R, ps, holds, x, (List.mem_filter.1 hx).1, rfl⟩

theorem gridStep_dims (boxsize : Q) {dims : List Nat} {step : Fin 3 → Q} (h : gridStep boxsize dims = .ok step) :
    ∃ a b c : Nat, dims = [a, b, c] ∧ step 0 = boxsize / a ∧ step 1 = boxsize / b ∧ step 2 = boxsize / c := by
  match dims, h with
  | [a, b, c], h =>
    injection h with h
    subst h
    exact ⟨a, b, c, rfl, rfl, rfl, rfl⟩

theorem getGrid_slice {B : Q} (hB : 0 < B) {n : Nat} (hn : 0 < n) (x : Q) {step : Q} (hs : step = B / n) :
    ∃ i : Nat, getGrid x step n = i ∧ InSlice B n x i := by
  have hn1 : (0 : Q) < n := by exact_mod_cast hn
  have hst : 0 < step := by rw [hs]; exact div_pos hB hn1
  have hBn : step * n = B := by rw [hs, div_mul_cancel₀ _ hn1.ne']
  have h1 := getGrid_range x step n (by omega)
  have hc : (((getGrid x step n).toNat : Nat) : Q) = ((getGrid x step n : Int) : Q) := by
    rw [← Int.cast_natCast, Int.toNat_of_nonneg h1.1]
  have hneg : x < 0 → getGrid x step n = 0 := by
    intro hx
    have : ⌊x / step⌋ < 0 := Int.floor_lt.2 (by simpa using div_neg_of_neg_of_pos hx hst)
    unfold getGrid
    simp only
    split_ifs <;> omega
  have habove : B ≤ x → getGrid x step n = n - 1 := by
    intro hx
    have : (n : Int) ≤ ⌊x / step⌋ := Int.le_floor.2 (by
      rw [le_div_iff₀ hst, Int.cast_natCast, mul_comm, hBn]
      exact hx)
    unfold getGrid
    simp only
    split_ifs <;> omega
  refine ⟨(getGrid x step n).toNat, by omega, by omega, ?_, ?_, fun hx => by rw [hneg hx]; rfl, fun hx => by rw [habove hx]; omega⟩
  · intro hx
    rw [hc, ← hs]
    rcases lt_or_ge x B with hx1 | hx1
    · exact (getGrid_interior x step n hst hx (by rw [Int.cast_natCast, hBn]; exact hx1)).1
    · have h3 : ((n - 1 : Int) : Q) * step ≤ n * step := by
        refine mul_le_mul_of_nonneg_right ?_ hst.le
        push_cast
        linarith
      rw [habove hx1]
      rw [mul_comm _ step, mul_comm _ step, hBn] at h3
      rw [mul_comm]
      exact h3.trans hx1
  · intro hx
    rw [hc, ← hs]
    rcases lt_or_ge x 0 with hx1 | hx1
    · rw [hneg hx1]
      simp
      linarith
    · exact (getGrid_interior x step n hst hx1 (by rw [Int.cast_natCast, hBn]; exact hx)).2

theorem assignCell_cell {B : Q} (hB : 0 < B) {n0 n1 n2 : Nat} (h0 : 0 < n0) (h1 : 0 < n1) (h2 : 0 < n2) {step : Fin 3 → Q} (s0 : step 0 = B / n0)
    (s1 : step 1 = B / n1) (s2 : step 2 = B / n2) (x : Fin 3 → Q) {r : Nat}
    (h : assignCell x step ([n0, n1, n2].map Int.ofNat) = .ok (r : Int)) : CellOf B n0 n1 n2 x r := by
  obtain ⟨i, ei, hi⟩ := getGrid_slice hB h0 (x 0) s0
  obtain ⟨j, ej, hj⟩ := getGrid_slice hB h1 (x 1) s1
  obtain ⟨k, ek, hk⟩ := getGrid_slice hB h2 (x 2) s2
  refine ⟨i, j, k, hi, hj, hk, ?_⟩
  have hr : assignCell x step ([n0, n1, n2].map Int.ofNat) = .ok ((getGrid (x 0) (step 0) n0 * n1 + getGrid (x 1) (step 1) n1) * n2
      + getGrid (x 2) (step 2) n2) := rfl
  rw [hr, ei, ej, ek] at h
  injection h with h
  exact_mod_cast h.symm

/-- The masses and positions of the wanted particles with group number `g`. -/
def groupBodies (R : HydroReading Q) (ps : List (HydroHeader Q × (Fin 6 → List (HydroRecord Q)))) (g : Int) : List (SnapParticle Q) :=
  ((ps.flatMap (fun f => R.wanted f.2)).filter (fun x => decide (x.2.group = g))).map (fun x => R.particle x.1 x.2)

/-- The parts common to both theorems on placement. -/
theorem readHalos_apostle {b : Build K D S} {rd : Readers D S Q} (hrd : ReadersOk b rd) (hc : 0 < b.chunk) {f : InputFiles Q} {rest : String}
    (fmt : rd.groupFormat = "apostle" ++ rest)
    {isz : Nat} {R : HydroReading Q} {ps : List (HydroHeader Q × (Fin 6 → List (HydroRecord Q)))} (holds : HydroSays rd.gadget isz f.hydro R ps)
    (small : ∀ f ∈ ps, ∀ x ∈ R.wanted f.2, x.2.group ≤ 2 ^ 30) {P : Nat} (hP : 0 < P) (few : P * (b.chunk + 1) < 2 ^ 31) :
    ∃ n0 n1 n2 : Nat, ∃ step : Fin 3 → Q, closestFactors rd.root P 3 = .ok [n0, n1, n2] ∧ n0 * n1 * n2 = P ∧ 0 < n0 ∧ 0 < n1 ∧ 0 < n2 ∧
      step 0 = rd.gadget.boxSize / n0 ∧ step 1 = rd.gadget.boxSize / n1 ∧ step 2 = rd.gadget.boxSize / n2 ∧
      (∀ x ∈ records (f.hydro.map (asRecords (hydroEnv rd.gadget))), x.2.group ≤ 2 ^ 30) ∧
      Announced (f.hydro.map (asRecords (hydroEnv rd.gadget))) ∧
      records (f.hydro.map (asRecords (hydroEnv rd.gadget))) = (ps.flatMap (fun f => R.wanted f.2)).map (fun x => (x.1.val, x.2)) ∧
      ∃ out : Fin P → List (HaloRec Int (SnapParticle Q)), loadApostleGroups P b.chunk rd.blank rd.sorts
        (fun ty r => (R.particle (Fin.ofNat 6 ty) r, hostOf r.group)) (rd.blank, 0)
        (fun l => averagePosition rd.gadget.periodic rd.gadget.boxSize rd.com (l.map (fun p => (p.mass, p.pos))))
        (reduceHaloRank rd.gadget.periodic rd.gadget.boxSize step ([n0, n1, n2].map Int.ofNat))
        (f.hydro.map (asRecords (hydroEnv rd.gadget))) = .ok out ∧
      readHalos P b rd f = .ok (fun r => (out r).map (fun h => b.average ⟨rd.newHalo h.shell, h.particles.map rd.particle⟩)) ∧
      ∀ r, ∀ g ∈ out r, g.particles.Perm (groupBodies R ps g.shell) := by
  obtain ⟨h0, hs, e0, hn, hbox, hR, hread, _, hpres, hann, hrec⟩ := holds.facts
  obtain ⟨dims, hd, hlen, hpos, hprod⟩ := C03_factors rd.root hrd.root P 3 hP (by omega)
  obtain ⟨step, hstep⟩ := gridStep_ok rd.gadget.boxSize hlen
  obtain ⟨n0, n1, n2, rfl, s0, s1, s2⟩ := gridStep_dims _ hstep
  have hsmall : ∀ x ∈ records (f.hydro.map (asRecords (hydroEnv rd.gadget))), x.2.group ≤ 2 ^ 30 := by
    intro x hx
    rw [hrec] at hx
    obtain ⟨y, hy, rfl⟩ := List.mem_map.1 hx
    obtain ⟨q, hq, hyq⟩ := List.mem_flatMap.1 hy
    exact small q hq y hyq
  obtain ⟨dims', hd', out, e, _, _, _, hmem⟩ := C44_groups rd.root hrd.root P hP b.chunk hc few rd.blank rd.sorts hrd.sorts
    (fun ty r => R.particle (Fin.ofNat 6 ty) r) HydroRecord.group (rd.blank, 0) rd.gadget.periodic rd.gadget.boxSize rd.com step
    (fun p => (p.mass, p.pos)) _ hann hsmall
  rw [hd] at hd'
  injection hd' with hd'
  subst hd'
  have eload := loadHydroGroups_eq (hydroEnv rd.gadget) holds.bytes hP b.chunk rd.blank rd.sorts
    (fun l => averagePosition rd.gadget.periodic rd.gadget.boxSize rd.com (l.map (fun p => (p.mass, p.pos))))
    (reduceHaloRank rd.gadget.periodic rd.gadget.boxSize step ([n0, n1, n2].map Int.ofNat)) h0 hs (by rw [← e0]; exact hn) hbox
    (by rw [← e0]; exact hread) (by rw [← e0]; exact hpres) (rd.blank, none) hrd.blank (rd.blank, 0)
  rw [← e0, ← hR, e] at eload
  refine ⟨n0, n1, n2, step, hd, ?_, hpos n0 (by simp), hpos n1 (by simp), hpos n2 (by simp), s0, s1, s2, hsmall, hann, hrec, out, e, ?_, ?_⟩
  · rw [← hprod]
    simp [mul_assoc]
  · rw [readHalos, fmt, (isApostle_name rest).1, (isApostle_name rest).2, if_neg Bool.false_ne_true, if_pos rfl]
    rw [hd, Outcome.bind_ok, hstep, Outcome.bind_ok, eload, Outcome.bind_ok]
  · intro r g hg
    have hm := hmem r g hg
    rw [hrec, List.filter_map, List.map_map] at hm
    refine hm.trans (List.Perm.of_eq ?_)
    unfold groupBodies
    apply List.map_congr_left
    intro x _
    simp

/-- C63. Where the groups of HDF5 files go, without periodic boundary: the box is divided into `P = n0 n1 n2` equal cells, one for each
process; a group goes to the process whose cell holds its centre of mass. -/
theorem C63_placement {b : Build K D S} (havg : ∀ h, (b.average h).particles = h.particles ∧ b.haloId (b.average h).shell = b.haloId h.shell)
    (hc : 0 < b.chunk) {rd : Readers D S Q} (hrd : ReadersOk b rd) {f : InputFiles Q} {rest : String} (fmt : rd.groupFormat = "apostle" ++ rest)
    {isz : Nat} {R : HydroReading Q} {ps : List (HydroHeader Q × (Fin 6 → List (HydroRecord Q)))} (holds : HydroSays rd.gadget isz f.hydro R ps)
    (small : ∀ f ∈ ps, ∀ x ∈ R.wanted f.2, x.2.group ≤ 2 ^ 30) (massive : ∀ f ∈ ps, ∀ x ∈ R.wanted f.2, 0 < (R.particle x.1 x.2).mass)
    (open_ : rd.gadget.periodic = false) (hB : 0 < rd.gadget.boxSize) {P : Nat} (hP : 0 < P) (few : P * (b.chunk + 1) < 2 ^ 31) :
    ∃ out : Fin P → List (HaloRec S (Particle D)), readHalos P b rd f = .ok out ∧ ∃ n0 n1 n2 : Nat, n0 * n1 * n2 = P ∧
      ∀ r, ∀ h ∈ out r, CellOf rd.gadget.boxSize n0 n1 n2
        (massMean ((groupBodies R ps (b.haloId h.shell)).map (fun p => (p.mass, p.pos)))) r.val := by
  obtain ⟨n0, n1, n2, step, hd, hprod, p0, p1, p2, s0, s1, s2, hsmall, hann, hrec, out, e, hread, hmem⟩ :=
    readHalos_apostle hrd hc fmt holds small hP few
  refine ⟨_, hread, n0, n1, n2, hprod, ?_⟩
  obtain ⟨dims', hd', out', e', hcell⟩ := C44_placement rd.root hrd.root P hP b.chunk hc few rd.blank rd.sorts hrd.sorts
    (fun ty r => R.particle (Fin.ofNat 6 ty) r) HydroRecord.group (rd.blank, 0) rd.gadget.boxSize rd.com step (fun p => (p.mass, p.pos)) _ (by
      intro x hx
      rw [hrec] at hx
      obtain ⟨y, hy, rfl⟩ := List.mem_map.1 hx
      obtain ⟨q, hq, hyq⟩ := List.mem_flatMap.1 hy
      simpa using massive q hq y hyq) hann hsmall
  rw [hd] at hd'
  injection hd' with hd'
  subst hd'
  rw [open_] at e
  rw [e] at e'
  injection e' with e'
  subst e'
  intro r h hh
  obtain ⟨g, hg, rfl⟩ := List.mem_map.1 hh
  have hid : b.haloId (rd.newHalo g.shell) = g.shell := hrd.haloId _
  rw [(havg _).2, hid]
  have hc' := hcell r g hg
  rw [massMean_perm ((hmem r g hg).map (fun p => (p.mass, p.pos)))] at hc'
  exact assignCell_cell hB p0 p1 p2 s0 s1 s2 _ hc'

/-- C63. Where the groups of HDF5 files go in a periodic box. `free` puts the particles into free space; a group that is compact there
goes to the process whose cell holds a point that is its centre of mass up to whole box lengths. -/
theorem C63_placement_periodic {b : Build K D S}
    (havg : ∀ h, (b.average h).particles = h.particles ∧ b.haloId (b.average h).shell = b.haloId h.shell)
    (hc : 0 < b.chunk) {rd : Readers D S Q} (hrd : ReadersOk b rd) {f : InputFiles Q} {rest : String} (fmt : rd.groupFormat = "apostle" ++ rest)
    {isz : Nat} {R : HydroReading Q} {ps : List (HydroHeader Q × (Fin 6 → List (HydroRecord Q)))} (holds : HydroSays rd.gadget isz f.hydro R ps)
    (small : ∀ f ∈ ps, ∀ x ∈ R.wanted f.2, x.2.group ≤ 2 ^ 30) (massive : ∀ f ∈ ps, ∀ x ∈ R.wanted f.2, 0 < (R.particle x.1 x.2).mass)
    (closed : rd.gadget.periodic = true) (hB : 0 < rd.gadget.boxSize) {P : Nat} (hP : 0 < P) (few : P * (b.chunk + 1) < 2 ^ 31)
    (free : SnapParticle Q → BoxParticle Q) (hfree : ∀ p, (free p).seen rd.gadget.boxSize = (p.mass, p.pos)) :
    ∃ out : Fin P → List (HaloRec S (Particle D)), readHalos P b rd f = .ok out ∧ ∃ n0 n1 n2 : Nat, n0 * n1 * n2 = P ∧
      ∀ r, ∀ h ∈ out r, CompactIn rd.gadget.boxSize ((groupBodies R ps (b.haloId h.shell)).map free) →
        ∃ c, SameModBox rd.gadget.boxSize (massMean (((groupBodies R ps (b.haloId h.shell)).map free).map BoxParticle.free)) c ∧
          CellOf rd.gadget.boxSize n0 n1 n2 c r.val := by
  obtain ⟨n0, n1, n2, step, hd, hprod, p0, p1, p2, s0, s1, s2, hsmall, hann, hrec, out, e, hread, hmem⟩ :=
    readHalos_apostle hrd hc fmt holds small hP few
  refine ⟨_, hread, n0, n1, n2, hprod, ?_⟩
  have hfm : ∀ p, (free p).mass = p.mass := fun p => congrArg Prod.fst (hfree p)
  obtain ⟨dims', hd', out', e', hcell⟩ := C44_placement_periodic rd.root hrd.root P hP b.chunk hc few rd.blank rd.sorts hrd.sorts
    (fun ty r => R.particle (Fin.ofNat 6 ty) r) HydroRecord.group (rd.blank, 0) rd.gadget.boxSize hB rd.com step free _ (by
      intro x hx
      rw [hrec] at hx
      obtain ⟨y, hy, rfl⟩ := List.mem_map.1 hx
      obtain ⟨q, hq, hyq⟩ := List.mem_flatMap.1 hy
      rw [hfm]
      simpa using massive q hq y hyq) hann hsmall
  rw [hd] at hd'
  injection hd' with hd'
  subst hd'
  simp only [hfree] at e'
  rw [closed] at e
  rw [e] at e'
  injection e' with e'
  subst e'
  obtain ⟨_, _, _, _, _, hRdef⟩ := holds.first
  have hplace : ∀ x, R.place x = positionModulus x rd.gadget.boxSize := by
    intro x
    rw [hRdef]
    simp [closed]
  intro r h hh
  obtain ⟨g, hg, rfl⟩ := List.mem_map.1 hh
  have hid : b.haloId (rd.newHalo g.shell) = g.shell := hrd.haloId _
  rw [(havg _).2, hid]
  intro hcomp
  have hp := (hmem r g hg).map free
  obtain ⟨c, hc1, hc2⟩ := hcell r g hg (fun p hp' q hq => hcomp p (hp.mem_iff.1 hp') q (hp.mem_iff.1 hq)) (by
    intro p hp' j
    obtain ⟨q, hq, rfl⟩ := List.mem_map.1 hp'
    obtain ⟨x, hx, rfl⟩ := List.mem_map.1 ((hmem r g hg).mem_iff.1 hq)
    rw [hfree]
    show 0 ≤ R.place _ ∧ R.place _ < _
    rw [hplace]
    exact ⟨(C04_wrap _ _ hB).1, (C04_wrap _ _ hB).2.1⟩)
  rw [massMean_perm (hp.map BoxParticle.free)] at hc1
  exact ⟨c, hc1, assignCell_cell hB p0 p1 p2 s0 s1 s2 _ hc2⟩

end

/-! ## Sessions -/

section
variable [LinearOrder K] [MassSum K] [Mul K] [LinearOrder R] [LinearOrder E] [Zero E]
variable [Field Q] [LinearOrder Q] [IsStrictOrderedRing Q] [FloorRing Q]

/-- The ids of the particles of a snapshot (after the last, those of the last). -/
def simOf (last : Int) (parts : Int → List (Particle D)) (i : Int) : List Int := (parts (min i last)).map Particle.id

theorem sim_persistent {b : Build K D S} {rd : Readers D S Q} {files : Int → InputFiles Q} {last : Int}
    {parts : Int → List (Particle D)} {groups : Int → List (Int × List Int)} (hf : FilesOk b rd files last parts groups) :
    Persistent b (simOf last parts) := by
  intro i hi x hx
  unfold simOf at hx ⊢
  rcases lt_or_ge i last with h | h
  · rw [min_eq_left (by omega)] at hx ⊢
    obtain ⟨p, hp, rfl⟩ := List.mem_map.1 hx
    exact hf.stay i hi h p hp
  · rw [min_eq_right h] at hx
    rw [min_eq_right (by omega)]
    exact Or.inl hx

/-- The inputs `w` are what the files of the snapshot hold. -/
structure InputRead {P : Nat} (b : Build K D S) (rd : Readers D S Q) (files : Int → InputFiles Q) (last : Int)
    (parts : Int → List (Particle D)) (groups : Int → List (Int × List Int)) (w : SnapInput K D E S R P) : Prop where
  range : b.minIndex ≤ w.snap ∧ w.snap ≤ last
  parts_ : allParticles w.parts = parts w.snap
  groups_ : GroupsRead b rd (files w.snap) (groups w.snap) w.halos

theorem input_ok {b : Build K D S} (hb : BuildOk b) {rd : Readers D S Q} (hrd : ReadersOk b rd) {files : Int → InputFiles Q} {last : Int}
    {parts : Int → List (Particle D)} {groups : Int → List (Int × List Int)} (hf : FilesOk b rd files last parts groups) {P : Nat}
    (hP : ProcsOk b rd last parts groups P) {w : SnapInput K D E S R P} (hw : WorldOk b w) (h0 : b.minIndex ≤ w.snap) (h1 : w.snap ≤ last) :
    ∃ p h, readParts P rd (files w.snap) = .ok p ∧ readHalos P b rd (files w.snap) = .ok h ∧
      InputRead b rd files last parts groups { w with parts := p, halos := h } ∧
      SnapInputOk b (simOf last parts w.snap) { w with parts := p, halos := h } := by
  obtain ⟨p, e1, e2⟩ := readParts_ok (hf.parts_ _ h0 h1) hrd.blank hP.pos
  obtain ⟨h, e3, e4⟩ := readHalos_ok hb.average hb.chunk hrd (hf.groups_ _ h0 h1) hP.pos hP.few (fun hg => hP.grouped hg _ h0 h1)
  have hsim : simOf last parts w.snap = (parts w.snap).map Particle.id := by unfold simOf; rw [min_eq_left h1]
  refine ⟨p, h, e1, e3, ⟨⟨h0, h1⟩, e2, e4⟩, ?_⟩
  refine ⟨hP.pos, hP.few, le_trans hb.minIndex h0, ?_, ?_, ?_, ?_, e4.distinct, ?_, ?_, hw.tableOrder, hw.feedOrder, hw.nestOrder, hw.maskOrder, hw.hostOrder,
    hw.loneOrder, hw.mergeOrder, hw.eachOrder, hw.env, hw.env'⟩
  · rw [hsim, e2]
  · rw [hsim]
    exact hf.distinct _ h0 h1
  · rw [hsim]
    intro i hi
    obtain ⟨q, hq, rfl⟩ := List.mem_map.1 hi
    exact hf.nonneg _ h0 h1 q hq
  · rw [hsim, List.length_map]
    exact hP.enough _ h0 h1
  · intro r g hg he
    have := e4.nonneg r g hg
    omega
  · rw [hsim]
    intro r g hg q hq
    by_cases hboth : rd.snapshotFormat = "apostle" ∧ ∃ rest, rd.groupFormat = "apostle" ++ rest
    · obtain ⟨hs, rest, hr⟩ := hboth
      have hin : q.id ∈ (parts w.snap).map Particle.id := by
        obtain ⟨isz, R, ps, hy, x, hx, rfl⟩ := e4.records (by rw [hr]; exact (isApostle_name rest).1) r g hg q hq
        refine List.mem_map_of_mem ?_
        have hp := hf.parts_ _ h0 h1
        generalize parts w.snap = ps' at hp
        cases hp with
        | gadget fmt => rw [hs] at fmt; exact absurd fmt (by decide)
        | apostle fmt isz' width R' ps' hy' =>
          obtain ⟨eR, ew⟩ := hy.unique hy'
          subst eR
          rw [ew] at hx
          exact List.mem_map.2 ⟨x, hx, rfl⟩
      split
      · exact hin
      · exact Or.inl hin
    · obtain ⟨k, hk, _, hp⟩ := e4.sound r g hg
      exact hf.members _ h0 h1 hboth k hk q.id (hp.mem_iff.1 (List.mem_map_of_mem hq))

/-- A session on files is a session on what is read from them. -/
theorem fileSession_eq {b : Build K D S} (hb : BuildOk b) {rd : Readers D S Q} (hrd : ReadersOk b rd) {files : Int → InputFiles Q} {last : Int}
    {parts : Int → List (Particle D)} {groups : Int → List (Int × List Int)} (hf : FilesOk b rd files last parts groups) {P : Nat}
    (hP : ProcsOk b rd last parts groups P) {a : Int} {xs : List (SnapInput K D E S R P × List (WriteOp P))} (hx : Worlds b a xs)
    (h0 : b.minIndex ≤ a) (h1 : a + xs.length ≤ last + 1) :
    ∃ ys : List (SnapInput K D E S R P × List (WriteOp P)), ys.length = xs.length ∧ Consecutive b (simOf last parts) a ys ∧
      (∀ y ∈ ys, InputRead b rd files last parts groups y.1) ∧ ∀ st disks, fileSession b rd files xs st disks = session b ys st disks := by
  induction hx with
  | nil a => exact ⟨[], rfl, Consecutive.nil a, (fun y hy => absurd hy List.not_mem_nil), fun _ _ => rfl⟩
  | @cons a w ops xs snap ok ops_ rest ih =>
    rw [List.length_cons] at h1
    push_cast at h1
    obtain ⟨ys, l, c, rd', e⟩ := ih (by omega) (by omega)
    obtain ⟨p, h, e1, e2, e3, e4⟩ := input_ok hb hrd hf hP ok (by omega) (by omega)
    refine ⟨({ w with parts := p, halos := h }, ops) :: ys, by rw [List.length_cons, List.length_cons, l], .cons snap (by rw [← snap]; exact e4) ops_ c, ?_, ?_⟩
    · intro y hy
      rcases List.mem_cons.1 hy with rfl | hy
      · exact e3
      · exact rd' y hy
    · intro st disks
      rw [fileSession, fileSnapshot, e1, Outcome.bind_ok, e2, Outcome.bind_ok, session]
      dsimp only
      congr 1
      funext y
      exact e _ _

theorem Numbered.exists_ {m : Int} : ∀ {hist : List (Σ P, SnapInput K D E S R P)}, Numbered m hist → ∀ i, m ≤ i → i < m + hist.length →
    ∃ x ∈ hist, x.2.snap = i
  | [], _, i, h1, h2 => by
    rw [List.length_nil] at h2
    push_cast at h2
    omega
  | y :: ys, h, i, h1, h2 => by
    rw [List.length_cons] at h2
    push_cast at h2
    by_cases hi : i = m + ys.length
    · exact ⟨y, List.mem_cons_self, by rw [h.1, hi]⟩
    · obtain ⟨x, hx, e⟩ := Numbered.exists_ h.2 i h1 (by omega)
      exact ⟨x, List.mem_cons_of_mem _ hx, e⟩

/-- Sessions on files are sessions on what is read from them, so that everything proved of those holds. -/
theorem C63_reach {b : Build K D S} (hb : BuildOk b) {rd : Readers D S Q} (hrd : ReadersOk b rd) {files : Int → InputFiles Q} {last : Int}
    {parts : Int → List (Particle D)} {groups : Int → List (Int × List Int)} (hf : FilesOk b rd files last parts groups) {disks : Int → Disk K D} {m : Nat}
    (h : FileReach (R := R) (E := E) b rd files last parts groups disks m) :
    ∃ hist : List (Σ P, SnapInput K D E S R P), hist.length = m ∧ Reach b (simOf last parts) disks hist ∧
      ∀ x ∈ hist, InputRead b rd files last parts groups x.2 := by
  induction h with
  | start disks => exact ⟨[], rfl, .start disks, fun x hx => absurd hx List.not_mem_nil⟩
  | @session disks m h P hP n hn xs hx hlast st st' disks' e e' junk ih =>
    obtain ⟨hist, l, hr, hread⟩ := ih
    obtain ⟨ys, ly, c, hy, es⟩ := fileSession_eq hb hrd hf hP hx (by omega) hlast
    rw [es] at e'
    refine ⟨(ys.reverse.map (fun x => ⟨P, x.1⟩)) ++ hist.drop (hist.length - n), ?_, ?_, ?_⟩
    rotate_left
    · rw [← ly]
      exact Reach.session hr hP.pos (by rw [l]; exact hn) c e e' junk
    · intro x hx
      rcases List.mem_append.1 hx with hx | hx
      · obtain ⟨y, hy', rfl⟩ := List.mem_map.1 hx
        exact hy y (List.mem_reverse.1 hy')
      · exact hread x (List.mem_of_mem_drop hx)
    · rw [List.length_append, List.length_map, List.length_reverse, List.length_drop, ly]
      omega

/-- C63. Whatever sessions there have been, a session on the files of the simulation from any snapshot up to the first that is not
complete, with any suitable number of processes, any schedules and any gravity solver, loads the last catalogue, reads the files of all
its snapshots and processes them: there is no undefined behaviour, no abort, no endless loop. -/
theorem C63_never_fails {b : Build K D S} (hb : BuildOk b) {rd : Readers D S Q} (hrd : ReadersOk b rd) {files : Int → InputFiles Q} {last : Int}
    {parts : Int → List (Particle D)} {groups : Int → List (Int × List Int)} (hf : FilesOk b rd files last parts groups) {disks : Int → Disk K D} {m : Nat}
    (h : FileReach (R := R) (E := E) b rd files last parts groups disks m) {P : Nat} (hP : ProcsOk b rd last parts groups P) {n : Nat} (hn : n ≤ m)
    {xs : List (SnapInput K D E S R P × List (WriteOp P))} (hx : Worlds b (b.minIndex + n) xs) (hlast : b.minIndex + n + xs.length ≤ last + 1) :
    ∃ st st' disks', launch P b (b.minIndex + n) disks = .ok st ∧ fileSession b rd files xs st disks = .ok (st', disks') := by
  obtain ⟨hist, l, hr, _⟩ := C63_reach hb hrd hf h
  obtain ⟨ys, _, c, _, es⟩ := fileSession_eq hb hrd hf hP hx (by omega) hlast
  obtain ⟨st, st', disks', e1, e2⟩ := C58_never_fails hb (sim_persistent hf) hr hP.pos (by rw [l]; exact hn) c
  exact ⟨st, st', disks', e1, by rw [es]; exact e2⟩

/-- C63. The catalogue of each complete snapshot loads, with any number of processes, and in it: the track ids are `0`, …, `N-1`, each once;
each track has at least `MinNumPartOfSub` bound particles, or is an orphan with at most one particle; its particles are in the files of
this snapshot; its host is one of the groups in the files of this snapshot, or none. -/
theorem C63_catalogue {b : Build K D S} (hb : BuildOk b) {rd : Readers D S Q} (hrd : ReadersOk b rd) {files : Int → InputFiles Q} {last : Int}
    {parts : Int → List (Particle D)} {groups : Int → List (Int × List Int)} (hf : FilesOk b rd files last parts groups) {disks : Int → Disk K D} {m : Nat}
    (h : FileReach (R := R) (E := E) b rd files last parts groups disks m) {i : Int} (h0 : b.minIndex ≤ i) (hi : i < b.minIndex + m) {P' : Nat} (hP' : 0 < P') :
    ∃ ld : Fin P' → List (Sub K D),
      loadSubs P' .source b.blank b.minIndex i (b.snapId i) (disks i) = .ok ld ∧
      (∃ N, ((everyone ld).map Sub.trackId).Perm ((List.range N).map (fun k : Nat => (k : Int)))) ∧
      ∀ s ∈ everyone ld,
        ((b.cfg.minNum ≤ s.nbound ∧ s.nbound ≤ s.particles.length) ∨ (s.nbound ≤ 1 ∧ s.particles.length = s.nbound)) ∧
        (∀ p ∈ s.particles, ∃ q ∈ parts i, q.id = p.id) ∧
        (s.hostHaloId = -1 ∨ ∃ g ∈ groups i, g.1 = s.hostHaloId) := by
  obtain ⟨hist, l, hr, hread⟩ := C63_reach hb hrd hf h
  obtain ⟨tr, ha⟩ := reach_archive hb (sim_persistent hf) hr
  obtain ⟨x, hx, rfl⟩ := ha.numbered.exists_ i h0 (by rw [l]; exact hi)
  obtain ⟨ld, e1, e2, e3⟩ := C58_catalogue hb (sim_persistent hf) hr hx hP'
  refine ⟨ld, e1, e2, fun s hs => ?_⟩
  obtain ⟨f1, f2, f3⟩ := e3 s hs
  have hrx := hread x hx
  refine ⟨f1, fun p hp => ?_, ?_⟩
  · have := f2 p hp
    unfold simOf at this
    rw [min_eq_left hrx.range.2] at this
    obtain ⟨q, hq, e⟩ := List.mem_map.1 this
    exact ⟨q, hq, e⟩
  · refine f3.imp_right ?_
    rintro ⟨r, g, hg, e⟩
    obtain ⟨k, hk, ek, _⟩ := hrx.groups_.sound r g hg
    exact ⟨k, hk, by rw [ek, e]⟩

/-- C63. At the end of a session the particles of all tracks are records of the files of the last snapshot, with their positions, velocities and
masses, however groups are read (if groups are read with the particle data, from the same files). -/
theorem C63_current {b : Build K D S} (hb : BuildOk b) {rd : Readers D S Q} (hrd : ReadersOk b rd) {files : Int → InputFiles Q} {last : Int}
    {parts : Int → List (Particle D)} {groups : Int → List (Int × List Int)} (hf : FilesOk b rd files last parts groups) {disks : Int → Disk K D} {m : Nat}
    (h : FileReach (R := R) (E := E) b rd files last parts groups disks m) {P : Nat} (hP : ProcsOk b rd last parts groups P) {n : Nat} (hn : n ≤ m)
    {xs : List (SnapInput K D E S R P × List (WriteOp P))} (hx : Worlds b (b.minIndex + n) xs) (hlast : b.minIndex + n + xs.length ≤ last + 1)
    {st st' : Fin P → List (Sub K D)} {disks' : Int → Disk K D} (e : launch P b (b.minIndex + n) disks = .ok st)
    (e' : fileSession b rd files xs st disks = .ok (st', disks')) (hne : xs ≠ [])
    (hsame : rd.groupFormat = "apostle_particle_index" → rd.snapshotFormat = "apostle") :
    ∀ r, ∀ s ∈ st' r, ∀ p ∈ s.particles, p ∈ parts (b.minIndex + n + xs.length - 1) := by
  obtain ⟨hist, l, hr, _⟩ := C63_reach hb hrd hf h
  obtain ⟨ys, ly, c, hy, es⟩ := fileSession_eq hb hrd hf hP hx (by omega) hlast
  rw [es] at e'
  rcases List.eq_nil_or_concat ys with rfl | ⟨zs, y, rfl⟩
  · exact absurd (List.eq_nil_of_length_eq_zero (by rw [← ly]; rfl)) hne
  rw [List.concat_eq_append] at c e' hy ly
  obtain ⟨w, ops⟩ := y
  have hw := hy (w, ops) (by simp)
  have hsnap : w.snap = b.minIndex + n + xs.length - 1 := by
    rw [c.last, ← ly, List.length_append, List.length_singleton]
    push_cast
    omega
  intro r s hs p hp
  rw [← hsnap]
  rcases C58_current hb (sim_persistent hf) hr hP.pos (by rw [l]; exact hn) c e e' r s hs p hp with hp' | ⟨hfull, r', g, hg, hpg⟩
  · rw [← hw.parts_]
    exact (mem_allParticles _ _).2 hp'
  · rw [hrd.full, decide_eq_true_eq] at hfull
    obtain ⟨isz, R', ps, hy, x, hx', rfl⟩ := hw.groups_.records (by rw [hfull]; decide) r' g hg p hpg
    have hps := hf.parts_ _ hw.range.1 hw.range.2
    generalize parts w.snap = ps' at hps
    cases hps with
    | gadget fmt => rw [hsame hfull] at fmt; exact absurd fmt (by decide)
    | apostle fmt isz' width R'' ps' hy' =>
      obtain ⟨eR, ew⟩ := hy.unique hy'
      subst eR
      rw [ew] at hx'
      exact List.mem_map.2 ⟨x, hx', rfl⟩

/-- C63. A snapshot or group format the program does not know is refused before anything is computed or written. -/
theorem C63_unknown_format {b : Build K D S} {rd : Readers D S Q} {files : Int → InputFiles Q} {P : Nat}
    (w : SnapInput K D E S R P) (ops : List (WriteOp P)) (xs : List (SnapInput K D E S R P × List (WriteOp P))) (st : Fin P → List (Sub K D))
    (disks : Int → Disk K D) :
    (rd.snapshotFormat ∉ ["gadget", "apostle", "mysnapshot"] → fileSession b rd files ((w, ops) :: xs) st disks = .abort) ∧
    (isGadgetGroup rd.groupFormat = false → isApostleGroup rd.groupFormat = false → rd.groupFormat ≠ "my_group_format" →
      ∀ parts, readParts P rd (files w.snap) = .ok parts → fileSession b rd files ((w, ops) :: xs) st disks = .abort) := by
  refine ⟨fun h => ?_, fun h1 h2 h3 parts e => ?_⟩
  · simp only [List.mem_cons, List.not_mem_nil, or_false, not_or] at h
    rw [fileSession, fileSnapshot, readParts, if_neg h.1, if_neg h.2.1, if_neg h.2.2]
    rfl
  · rw [fileSession, fileSnapshot, e, Outcome.bind_ok, readHalos, h1, h2, if_neg Bool.false_ne_true, if_neg Bool.false_ne_true, if_neg h3]
    rfl

end
end HBT.Props
