import Verif.Props.Input
import Verif.Props.MainExample
import Verif.Props.GadgetSnapExamples
/-!
# Concrete files for C63

Two snapshots of twelve particles. In the first there are two groups, in the second one.
-/
namespace HBT.Props.InputExample
open HBT HBT.Model HBT.Spec HBT.MainLoop HBT.GS HBT.Props

theorem sortsOk : SortsOk (⟨mSort Prod.snd, mSort HaloInfo.id, mSort (fun h => (h.order : Int)), mSort Prod.fst, mSort HaloRec.shell⟩ :
    ApostleSorts (SnapParticle ℚ) (Weighted ℚ)) :=
  ⟨mSort_spec _, mSort_spec _, mSort_spec _, mSort_spec _, mSort_spec _⟩

/-- Only dark matter is used; particle data is the first coordinate. -/
def env : GadgetEnv ℚ := { GadgetExample.env with dmOnly := true, thermal := false }

def readers (snapshot group : String) : Readers Nat Int ℚ where
  snapshotFormat := snapshot
  groupFormat := group
  gadget := env
  data p := (p.pos 0).num.toNat
  mask := 0
  blank := ⟨fun _ => 55, fun _ => 0, -1, 0, none, none⟩
  newHalo i := i
  sorts := ⟨mSort Prod.snd, mSort HaloInfo.id, mSort (fun h => (h.order : Int)), mSort Prod.fst, mSort HaloRec.shell⟩
  com _ := 0
  root N dim := if dim = 1 then N else 1

def build (group : String) : Build ℚ Nat Int := { mBuild true false with fullGroups := decide (group = "apostle_particle_index") }

theorem build_ok (group : String) : BuildOk (build group) :=
  { mBuild_ok true false with }

theorem readers_ok (snapshot group : String) : ReadersOk (build group) (readers snapshot group) where
  haloId _ := rfl
  sorts := sortsOk
  root := ⟨fun N dim hN _ => by show 0 < if dim = 1 then N else 1; split <;> omega, fun N => by show (if 1 = 1 then N else 1) = N; rw [if_pos rfl]⟩
  blank := ⟨rfl, rfl⟩
  full := rfl

/-! ## Apostle files -/

/-- A particle with an id and a group number. Its first coordinate tells the snapshot, the others are such that the particles with large
ids are on the far side of the box. -/
def hydroRecord (k : Nat) (x : Nat × Int) : HydroRecord ℚ where
  pos j := if j = 0 then k + 105 else 8 * x.1
  vel _ := 2
  id := x.1
  mass := 0
  energy := 1
  group := x.2

/-- Gas and dark matter of a file. -/
abbrev TwoTypes := List (Nat × Int) × List (Nat × Int)

/-- One gas particle in each of the three files; the groups 4 and 9 of the first snapshot are one group, 2, in the second. -/
def apostleTable (k : Nat) : List TwoTypes :=
  if k = 0 then [([(50, 4)], [(1, 4), (8, 9), (11, -1), (3, 4)]), ([(51, 4)], [(10, 9), (2, 4), (7, 9)]),
    ([(52, -1)], [(12, -5), (9, 9), (5, 4), (4, 4), (6, 4)])]
  else [([(50, 4)], [(1, 2), (8, 2), (11, -1), (3, 2), (4, 2), (5, 2)]), ([(51, 2)], [(10, 2), (2, 2), (7, 2), (12, -1), (9, 2), (6, 2)])]

def hydroHeader (k : Nat) : HydroHeader ℚ := ⟨(apostleTable k).length, 100, 1/2, 3/10, 7/10, fun t => if t = 1 then 5 else 0⟩

def apostleFiles (k : Nat) : List (HydroHeader ℚ × (Fin 6 → List (HydroRecord ℚ))) :=
  (apostleTable k).map (fun f => (hydroHeader k, fun t => if t = 0 then f.1.map (hydroRecord k) else if t = 1 then f.2.map (hydroRecord k) else []))

/-- The files use the old names, have ids of four bytes and groups for types without particles. -/
def apostleInput (i : Int) : InputFiles ℚ :=
  ⟨[], (apostleFiles i.toNat).map (fun f => hydroFile true 4 true f.1 f.2), ⟨fun _ _ _ => none, fun _ => 0⟩⟩

def hydroReading (k : Nat) : HydroReading ℚ where
  place := fun x => if env.periodic = true then positionModulus x env.boxSize else x
  velScale := env.sqrt (hydroHeader k).time
  massTable := (hydroHeader k).massTable
  dmOnly := env.dmOnly
  thermal := env.thermal

def apostleWanted (k : Nat) : List (Fin 6 × HydroRecord ℚ) := (apostleFiles k).flatMap (fun f => (hydroReading k).wanted f.2)

def apostleParts (i : Int) : List (Particle Nat) :=
  (apostleWanted i.toNat).map (fun x => ⟨x.2.id, (((hydroReading i.toNat).particle x.1 x.2).pos 0).num.toNat⟩)

def apostleGroups (i : Int) : List (Int × List Int) :=
  if i = 0 then [(9, [7, 8, 9, 10]), (4, [1, 2, 3, 4, 5, 6])] else [(2, [1, 2, 3, 4, 5, 6, 7, 8, 9, 10])]

theorem apostleTable_fits (k : Nat) : ∀ f ∈ apostleTable k, ∀ x ∈ f.1 ++ f.2, Fits 8 x.1 ∧ Fits 8 x.2 := by
  unfold apostleTable Fits
  split <;> decide

theorem apostle_holds (i : Int) : HydroSays env 4 (apostleInput i).hydro (hydroReading i.toNat) (apostleFiles i.toNat) where
  bytes := Or.inr rfl
  stored := ⟨true, true, rfl⟩
  first := by
    have hl : (apostleFiles i.toNat).length = (apostleTable i.toNat).length := List.length_map _
    have hne : 0 < (apostleTable i.toNat).length := by unfold apostleTable; split <;> decide
    have hh : ∀ f ∈ apostleFiles i.toNat, f.1 = hydroHeader i.toNat := by
      intro f hf
      obtain ⟨q, _, rfl⟩ := List.mem_map.1 hf
      rfl
    cases e : apostleFiles i.toNat with
    | nil => rw [e] at hl; simp at hl; omega
    | cons f0 fs =>
      have h0 := hh f0 (by rw [e]; exact List.mem_cons_self)
      exact ⟨f0, fs, rfl, by rw [h0, ← e, hl]; rfl, by rw [h0]; rfl, by rw [h0]; rfl⟩
  ids f hf t p hp := by
    obtain ⟨q, hq, rfl⟩ := List.mem_map.1 hf
    have := apostleTable_fits i.toNat q hq
    simp only at hp
    split at hp
    · obtain ⟨x, hx, rfl⟩ := List.mem_map.1 hp
      exact this x (List.mem_append_left _ hx)
    · split at hp
      · obtain ⟨x, hx, rfl⟩ := List.mem_map.1 hp
        exact this x (List.mem_append_right _ hx)
      · cases hp

/-- The formats. In the last case groups keep the particle data they are read with. -/
theorem apostle_ok (rest : String) : FilesOk (build ("apostle" ++ rest)) (readers "apostle" ("apostle" ++ rest)) apostleInput 1 apostleParts apostleGroups where
  parts_ i _ _ := .apostle rfl 4 (show 4 ≤ 8 by decide) _ _ (apostle_holds i)
  groups_ i h0 h1 := by
    have hi : i = 0 ∨ i = 1 := by
      have : (0 : Int) ≤ i := h0
      omega
    refine .apostle rest rfl 4 _ _ (apostle_holds i) ?_ _ ?_ ?_ ?_
    · rcases hi with rfl | rfl <;> decide +kernel
    · unfold apostleGroups
      split <;> decide
    · intro g
      have : (∃ f ∈ apostleFiles i.toNat, ∃ x ∈ (hydroReading i.toNat).wanted f.2, x.2.group = g) ↔ g ∈ (apostleWanted i.toNat).map (fun x => x.2.group) := by
        unfold apostleWanted
        rw [List.mem_map]
        constructor
        · rintro ⟨f, hf, x, hx, e⟩
          exact ⟨x, List.mem_flatMap.2 ⟨f, hf, hx⟩, e⟩
        · rintro ⟨x, hx, e⟩
          obtain ⟨f, hf, hx⟩ := List.mem_flatMap.1 hx
          exact ⟨f, hf, x, hx, e⟩
      rw [this]
      rcases hi with rfl | rfl
      · rw [show (apostleWanted (0 : Int).toNat).map (fun x => x.2.group) = [4, 9, -1, 4, 9, 4, 9, -5, 9, 4, 4, 4] from by decide +kernel]
        simp [apostleGroups]
        omega
      · rw [show (apostleWanted (1 : Int).toNat).map (fun x => x.2.group) = [2, 2, -1, 2, 2, 2, 2, 2, 2, -1, 2, 2] from by decide +kernel]
        simp [apostleGroups]
        omega
    · show ∀ g ∈ apostleGroups i, g.2.Perm (((apostleWanted i.toNat).filter (fun x => decide (x.2.group = g.1))).map (fun x => x.2.id))
      rcases hi with rfl | rfl <;> decide +kernel
  distinct i h0 h1 := by
    have hi : i = 0 ∨ i = 1 := by
      have : (0 : Int) ≤ i := h0
      omega
    rcases hi with rfl | rfl <;> decide +kernel
  nonneg i h0 h1 := by
    have hi : i = 0 ∨ i = 1 := by
      have : (0 : Int) ≤ i := h0
      omega
    rcases hi with rfl | rfl <;> decide +kernel
  stay i h0 h1 p hp := by
    left
    have : i = 0 := by
      have : (0 : Int) ≤ i := h0
      omega
    subst this
    revert p
    decide +kernel
  members i _ _ h := absurd ⟨rfl, rest, rfl⟩ h

theorem apostle_procs (rest : String) (P : Nat) (h0 : 0 < P) (h1 : P ≤ 12) :
    ProcsOk (build ("apostle" ++ rest)) (readers "apostle" ("apostle" ++ rest)) 1 apostleParts apostleGroups P where
  pos := h0
  few := by
    show P * 4 < 2 ^ 31
    omega
  enough i g0 g1 := by
    have hi : i = 0 ∨ i = 1 := by
      have : (0 : Int) ≤ i := g0
      omega
    refine le_trans h1 ?_
    rcases hi with rfl | rfl <;> decide +kernel
  grouped h := by
    obtain ⟨v3, long, e⟩ := h
    have := isGadget_name v3 long
    rw [← e] at this
    have h2 := (isApostle_name rest).1
    rw [show (readers "apostle" ("apostle" ++ rest)).groupFormat = "apostle" ++ rest from rfl, h2] at this
    cases this

/-- Particles in a box of size 100 that is not periodic. -/
def openReaders (group : String) : Readers Nat Int ℚ := { readers "apostle" group with gadget := { env with periodic := false } }

theorem open_holds : HydroSays { env with periodic := false } 4 (apostleInput 0).hydro { hydroReading 0 with place := id } (apostleFiles 0) where
  bytes := (apostle_holds 0).bytes
  stored := (apostle_holds 0).stored
  first := ⟨_, _, rfl, rfl, rfl, rfl⟩
  ids := (apostle_holds 0).ids

/-- Which groups are read by which of two processes: the halves of the box differ in the last coordinate. -/
def placed (rd : Readers Nat Int ℚ) : Option (List (List Int)) :=
  match readHalos 2 (build rd.groupFormat) rd (apostleInput 0) with
  | .ok out => some [(out 0).map HaloRec.shell, (out 1).map HaloRec.shell]
  | _ => none

example : placed (openReaders "apostle") = some [[4], [9]] := by decide +kernel

example : placed (readers "apostle" "apostle") = some [[4], [9]] := by decide +kernel

example (rest : String) (P : Nat) (hP : 0 < P) (h1 : P ≤ 12) :=
  C63_placement (b := build ("apostle" ++ rest)) (rd := openReaders ("apostle" ++ rest)) (f := apostleInput 0) (rest := rest) (P := P)
    (build_ok _).average (show 0 < 3 by decide) { readers_ok "apostle" ("apostle" ++ rest) with } rfl open_holds (by decide +kernel) (by decide +kernel) rfl
    (by norm_num [openReaders, readers, env, GadgetExample.env]) hP (by show P * 4 < 2 ^ 31; omega)

/-- Free space is where the particles are recorded: no group is cut by the boundary. -/
def freeBody (p : SnapParticle ℚ) : BoxParticle ℚ := ⟨p.mass, p.pos, fun _ => 0⟩

example (rest : String) (P : Nat) (hP : 0 < P) (h1 : P ≤ 12) :=
  C63_placement_periodic (b := build ("apostle" ++ rest)) (rd := readers "apostle" ("apostle" ++ rest)) (f := apostleInput 0) (rest := rest) (P := P)
    (build_ok _).average (show 0 < 3 by decide) (readers_ok "apostle" ("apostle" ++ rest)) rfl (apostle_holds 0) (by decide +kernel) (by decide +kernel) rfl
    (by norm_num [readers, env, GadgetExample.env]) hP (by show P * 4 < 2 ^ 31; omega) freeBody (fun p => by simp [BoxParticle.seen, freeBody])

example : CompactIn (100 : ℚ) ((groupBodies (hydroReading 0) (apostleFiles 0) 4).map freeBody) ∧
    CompactIn (100 : ℚ) ((groupBodies (hydroReading 0) (apostleFiles 0) 9).map freeBody) := by
  unfold CompactIn
  decide +kernel

/-- Schedules and gravity of the example of the main loop. -/
theorem world_ok {P : Nat} (group : String) (snap : Int) (parts : Fin P → List Int) (halos : Fin P → List (Int × List Int)) :
    WorldOk (build group) (mWorld snap parts halos) where
  tableOrder _ _ := List.reverse_perm _
  feedOrder _ _ := List.reverse_perm _
  nestOrder _ _ := List.reverse_perm _
  maskOrder _ _ := List.reverse_perm _
  hostOrder _ _ := List.reverse_perm _
  loneOrder _ _ := List.reverse_perm _
  mergeOrder _ _ := List.reverse_perm _
  eachOrder _ _ := List.reverse_perm _
  env _ _ _ := ⟨⟨exESort_spec, fun _ => List.Perm.refl _⟩, rfl⟩
  env' _ _ _ := ⟨⟨exESort_spec, fun _ => List.Perm.refl _⟩, rfl⟩

def world (P : Nat) (snap : Int) : SnapInput ℚ Nat Int Int Int P := mWorld snap (fun _ => []) (fun _ => [])

def run (snapshot group : String) (files : Int → InputFiles ℚ) := do
  let st ← launch 2 (build group) 0 mNone
  fileSession (build group) (readers snapshot group) files [(world 2 0, mOps2), (world 2 1, mOps2)] st mNone


def big : MRow := ⟨0, 2, 0, [1], 8, [(8, 6), (3, 6), (4, 6), (5, 6), (2, 6), (1, 6), (7, 6), (6, 6)], -1, -1⟩
def small : MRow := ⟨1, 2, 1, [], 2, [(9, 6), (10, 6), (7, 6), (8, 6)], -1, -1⟩

/-- Two processes. The second group becomes a satellite of the first and loses two particles. -/
example : mResult (run "apostle" "apostle" apostleInput) = some [[big, small], []] := by decide +kernel

/-- The data the groups were read with. The groups stay on the processes their centres of mass belong to: in the
second snapshot, the second. -/
example : mResult (run "apostle" "apostle_particle_index" apostleInput) =
    some [[], [small, big]] := by decide +kernel

theorem worlds (group : String) (P : Nat) (ops : List (WriteOp P)) (h : ∀ r, .sub r ∈ ops ∧ .src r ∈ ops) :
    Worlds (build group) 0 [(world P 0, ops), (world P 1, ops)] :=
  .cons rfl (world_ok group 0 _ _) h (.cons rfl (world_ok group 1 _ _) h (.nil 2))

theorem ops_ok : ∀ r : Fin 2, .sub r ∈ mOps2 ∧ .src r ∈ mOps2 := by decide

/-- `C63_never_fails` at the beginning, in directories that hold anything, with any suitable number of processes. -/
example (rest : String) (P : Nat) (h0 : 0 < P) (h1 : P ≤ 12) (ops : List (WriteOp P)) (h : ∀ r, .sub r ∈ ops ∧ .src r ∈ ops) (disks : Int → Disk ℚ Nat) :
    ∃ st st' disks', launch P (build ("apostle" ++ rest)) 0 disks = .ok st ∧
      fileSession (build ("apostle" ++ rest)) (readers "apostle" ("apostle" ++ rest)) apostleInput [(world P 0, ops), (world P 1, ops)] st disks = .ok (st', disks') :=
  C63_never_fails (n := 0) (build_ok _) (readers_ok _ _) (apostle_ok rest) (.start disks) (apostle_procs rest P h0 h1) (le_refl 0)
    (worlds ("apostle" ++ rest) P ops h) (show (0 : Int) + (0 : Nat) + (2 : Nat) ≤ 1 + 1 by decide)

/-- Two complete snapshots, computed in two sessions with different numbers of processes. The first session was killed while it wrote the
second snapshot. -/
theorem reached (rest : String) : ∃ disks : Int → Disk ℚ Nat,
    FileReach (R := Int) (E := Int) (build ("apostle" ++ rest)) (readers "apostle" ("apostle" ++ rest)) apostleInput 1 apostleParts apostleGroups disks 2 := by
  have hf := apostle_ok rest
  have r0 : FileReach (R := Int) (E := Int) (build ("apostle" ++ rest)) (readers "apostle" ("apostle" ++ rest)) apostleInput 1 apostleParts apostleGroups mNone 0 :=
    .start mNone
  have hP2 := apostle_procs rest 2 (by decide) (by decide)
  have hP1 := apostle_procs rest 1 (by decide) (by decide)
  have w0 : Worlds (build ("apostle" ++ rest)) (0 : Int) [(world 2 0, mOps2)] := .cons rfl (world_ok _ 0 _ _) ops_ok (.nil 1)
  obtain ⟨st, st', disks', e1, e2⟩ := C63_never_fails (n := 0) (build_ok _) (readers_ok _ _) hf r0 hP2 (le_refl 0) w0 (show (0 : Int) + (0 : Nat) + (1 : Nat) ≤ 1 + 1 by decide)
  have r1 := FileReach.session r0 hP2 (n := 0) (le_refl 0) w0 (show (0 : Int) + (0 : Nat) + (1 : Nat) ≤ 1 + 1 by decide) e1 e2 ⟨fun _ => none, fun _ => none⟩
  have w1 : Worlds (build ("apostle" ++ rest)) (1 : Int) [(world 1 1, mOps1)] := .cons rfl (world_ok _ 1 _ _) (by decide) (.nil 2)
  obtain ⟨st2, st2', disks2', e3, e4⟩ := C63_never_fails (n := 1) (build_ok _) (readers_ok _ _) hf r1 hP1 (le_refl 1) w1 (show (0 : Int) + (1 : Nat) + (1 : Nat) ≤ 1 + 1 by decide)
  exact ⟨_, FileReach.session r1 hP1 (n := 1) (le_refl 1) w1 (show (0 : Int) + (1 : Nat) + (1 : Nat) ≤ 1 + 1 by decide) e3 e4 ⟨fun _ => none, fun _ => none⟩⟩

/-! ## Gadget files -/

/-- Particle `i` is at `i + 20 k` in snapshot `k`. -/
def gadgetPart (k i : Nat) : RawParticle := GadgetExample.part (i + 20 * k) (i : Int)

def gadgetFile (k : Nat) (gas dm : List Nat) : RawFile :=
  ⟨GadgetExample.header, fun t => if t = 0 then gas.map (gadgetPart k) else if t = 1 then dm.map (gadgetPart k) else [], []⟩

def raw0 (k : Nat) : RawFile := gadgetFile k [50] [1, 2, 3, 10, 11, 12]
def raw1 (k : Nat) : RawFile := gadgetFile k [51] [4, 5, 6, 7, 8, 9]

def rawGroups (k : Nat) : RawGroups 32 :=
  { lens := if k = 0 then [6, 4] else [10], offsets := if k = 0 then [0, 6] else [0], ids := [1, 2, 3, 4, 5, 6, 7, 8, 9, 10]
    totGroups := 2, totIds := 10, nsub := 0, totNsub := 0, before := 0, rest := [] }

/-- All files are written with the big end first. -/
def gadgetInput (i : Int) : InputFiles ℚ :=
  ⟨[raw0 i.toNat, raw1 i.toNat].map (gadgetBytes false true 4 true fun w => decide (env.real8 w = 0)), [],
    ⟨fun q k n => if q = .fofFlat ∧ n = none then some (if k = .tab then tabBytes false false false 1 (rawGroups i.toNat) else idsBytes false false 1 (rawGroups i.toNat))
      else none, fun _ => 0⟩⟩

def reading : Reading ℚ where
  real := if 4 = 4 then env.real4 else env.real8
  dbl := env.real8
  place := fun x => if env.periodic = true then positionModulus x env.boxSize else x
  velScale := env.sqrt (env.real8 GadgetExample.header.scaleFactor)
  hasId := env.hasId
  dmOnly := env.dmOnly
  thermal := env.thermal

def gadgetParts (i : Int) : List (Particle Nat) :=
  (reading.files 0 [raw0 i.toNat, raw1 i.toNat]).flatten.map (fun p => ⟨p.id, (p.pos 0).num.toNat⟩)

def gadgetGroups (i : Int) : List (Int × List Int) :=
  (catalogue (if i = 0 then [6, 4] else [10]) [1, 2, 3, 4, 5, 6, 7, 8, 9, 10]).map (fun g => ((g.1 : Int), g.2))

theorem mem_gadgetFile {k : Nat} {gas dm : List Nat} {t : Fin 6} {p : RawParticle} (h : p ∈ (gadgetFile k gas dm).parts t) :
    ∃ i ∈ gas ++ dm, p = gadgetPart k i := by
  simp only [gadgetFile] at h
  split at h
  · obtain ⟨i, hi, rfl⟩ := List.mem_map.1 h
    exact ⟨i, List.mem_append_left _ hi, rfl⟩
  · split at h
    · obtain ⟨i, hi, rfl⟩ := List.mem_map.1 h
      exact ⟨i, List.mem_append_right _ hi, rfl⟩
    · cases h

theorem gadgetFile_ok {k : Nat} {gas dm : List Nat} (hl : (gadgetFile k gas dm).all.length ≤ 10) (hi : ∀ i ∈ gas ++ dm, i < 100) :
    (gadgetFile k gas dm).Acceptable reading env.idUnsigned env.intBytes 4 4 2 ∧ (gadgetFile k gas dm).Complete reading := by
  refine ⟨⟨GadgetExample.header_sized, ?_, by omega, rfl, ?_⟩, ⟨?_, ?_, ?_⟩⟩
  · intro t p hp
    obtain ⟨i, _, rfl⟩ := mem_gadgetFile hp
    exact GadgetExample.part_sized _ _
  · intro _ p hp
    rw [mem_all] at hp
    obtain ⟨t, ht⟩ := hp
    obtain ⟨i, h, rfl⟩ := mem_gadgetFile ht
    have := hi i h
    simp [IdFits, gadgetPart, GadgetExample.part, env, GadgetExample.env]
    omega
  · intro t
    simp only [gadgetFile, GadgetExample.header]
    split
    · simp
    · split <;> simp
  · intro h; cases h
  · intro _ h
    exact absurd h (show ¬ reading.dbl (GadgetExample.header.masses 1) = 0 by decide +kernel)

theorem cases_index {b : Build ℚ Nat Int} {i : Int} (h0 : b.minIndex ≤ i) (h1 : i ≤ 1) (hb : b.minIndex = 0) : i = 0 ∨ i = 1 := by
  omega

theorem gadget_ok : FilesOk (build "gadget2_int") (readers "gadget" "gadget2_int") gadgetInput 1 gadgetParts gadgetGroups where
  parts_ i h0 h1 := by
    refine .gadget rfl false 4 4 (Or.inl rfl) (Or.inr rfl) (fun _ => ⟨Or.inl rfl, by decide, rfl⟩) (raw0 i.toNat) [raw1 i.toNat] ?_ reading rfl ?_ ?_ ?_ rfl
    · rcases cases_index h0 h1 rfl with rfl | rfl <;> decide +kernel
    · intro g hg
      have hg : g = raw0 i.toNat ∨ g = raw1 i.toNat := by simpa using hg
      rcases hg with rfl | rfl <;> rcases cases_index h0 h1 rfl with rfl | rfl <;> exact gadgetFile_ok (by decide +kernel) (by decide)
    · rcases cases_index h0 h1 rfl with rfl | rfl <;> decide +kernel
    · rcases cases_index h0 h1 rfl with rfl | rfl <;> decide +kernel
  groups_ i h0 h1 := by
    have e : gadgetGroups i = (catalogue (if i.toNat = 0 then [6, 4] else [10]) [1, 2, 3, 4, 5, 6, 7, 8, 9, 10]).map (fun g => ((g.1 : Int), g.2)) := by
      rcases cases_index h0 h1 rfl with rfl | rfl <;> rfl
    rw [e]
    refine .gadget false false rfl rfl false .fofFlat [rawGroups i.toNat] ?_ ?_ ?_ _ ?_ _ ?_ ?_
    · refine ⟨?_, rfl, fun h => absurd h (by decide), ?_, ?_⟩
      · intro q hq
        have : q ≠ .fofFlat := by rintro rfl; revert hq; decide
        simp [gadgetInput, this]
      · intro j f h
        match j, h with
        | 0, rfl => rfl
      · intro j f h
        match j, h with
        | 0, rfl => rfl
    · intro g hg
      obtain rfl := List.mem_singleton.1 hg
      rcases cases_index h0 h1 rfl with rfl | rfl <;> exact ⟨by decide, by decide, by decide, by decide⟩
    · rcases cases_index h0 h1 rfl with rfl | rfl <;> decide +kernel
    · rcases cases_index h0 h1 rfl with rfl | rfl <;> decide +kernel
    · rcases cases_index h0 h1 rfl with rfl | rfl <;> decide +kernel
    · rcases cases_index h0 h1 rfl with rfl | rfl <;> decide +kernel
  distinct i h0 h1 := by rcases cases_index h0 h1 rfl with rfl | rfl <;> decide +kernel
  nonneg i h0 h1 := by rcases cases_index h0 h1 rfl with rfl | rfl <;> decide +kernel
  stay i h0 h1 p hp := by
    left
    have : i = 0 := by
      have : (0 : Int) ≤ i := h0
      omega
    subst this
    revert p
    decide +kernel
  members i h0 h1 _ g hg x hx := by
    left
    rcases cases_index h0 h1 rfl with rfl | rfl <;> revert x <;> revert g <;> decide +kernel

theorem gadget_procs (P : Nat) (h0 : 0 < P) (h1 : P ≤ 10) : ProcsOk (build "gadget2_int") (readers "gadget" "gadget2_int") 1 gadgetParts gadgetGroups P where
  pos := h0
  few := by
    show P * 4 < 2 ^ 31
    omega
  enough i g0 g1 := by
    refine le_trans h1 ?_
    rcases cases_index g0 g1 rfl with rfl | rfl <;> decide +kernel
  grouped _ i _ _ := by
    right
    refine le_trans h1 ?_
    unfold gadgetGroups
    split <;> decide

/-- The hypotheses of `C63_catalogue`. -/
example (rest : String) (i : Int) (h0 : 0 ≤ i) (h1 : i < 2) (P : Nat) (hP : 0 < P) : ∃ disks : Int → Disk ℚ Nat, ∃ ld : Fin P → List (Sub ℚ Nat),
    loadSubs P .source 99 0 i i (disks i) = .ok ld ∧ ∀ s ∈ everyone ld, ∀ p ∈ s.particles, ∃ q ∈ apostleParts i, q.id = p.id := by
  obtain ⟨disks, h⟩ := reached rest
  obtain ⟨ld, e, _, hl⟩ := C63_catalogue (build_ok _) (readers_ok _ _) (apostle_ok rest) h (i := i) h0 (show i < 0 + (2 : Nat) by omega) hP
  exact ⟨disks, ld, e, fun s hs => (hl s hs).2.1⟩

/-- The hypotheses of `C63_current`. -/
example (P : Nat) (h0 : 0 < P) (h1 : P ≤ 10) (ops : List (WriteOp P)) (h : ∀ r, .sub r ∈ ops ∧ .src r ∈ ops) (disks : Int → Disk ℚ Nat) :
    ∃ st st' disks', launch P (build "gadget2_int") 0 disks = .ok st ∧
      fileSession (build "gadget2_int") (readers "gadget" "gadget2_int") gadgetInput [(world P 0, ops), (world P 1, ops)] st disks = .ok (st', disks') ∧
      ∀ r, ∀ s ∈ st' r, ∀ p ∈ s.particles, p ∈ gadgetParts 1 := by
  obtain ⟨st, st', disks', e1, e2⟩ := C63_never_fails (n := 0) (build_ok _) (readers_ok _ _) gadget_ok (.start disks) (gadget_procs P h0 h1) (le_refl 0)
    (worlds _ P ops h) (show (0 : Int) + (0 : Nat) + (2 : Nat) ≤ 1 + 1 by decide)
  exact ⟨st, st', disks', e1, e2, C63_current (n := 0) (build_ok _) (readers_ok _ _) gadget_ok (.start disks) (gadget_procs P h0 h1) (le_refl 0)
    (worlds _ P ops h) (show (0 : Int) + (0 : Nat) + (2 : Nat) ≤ 1 + 1 by decide) e1 e2 (by simp) (by decide)⟩

example : mResult (run "gadget" "gadget2_int" gadgetInput) = some [[⟨0, 0, 0, [1], 8, [(7, 27), (2, 22), (3, 23), (4, 24), (5, 25), (1, 21), (9, 29), (6, 26)], -1, -1⟩,
    ⟨1, 0, 1, [], 2, [(10, 30), (8, 28), (9, 29), (7, 27)], -1, -1⟩], []] := by decide +kernel

end HBT.Props.InputExample
