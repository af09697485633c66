import Verif.Lemmas.Apostle
import Verif.Model.Hydro
/-!
# Lemmas about the HDF5 snapshot reader
-/
namespace HBT
open HBT.Model HBT.Spec

/-! ### Lists indexed by position -/

theorem zipWith_range {α β γ : Type} (f : α → β → γ) (a : Nat → α) (b : Nat → β) (n : Nat) :
    List.zipWith f ((List.range n).map a) ((List.range n).map b) = (List.range n).map fun i => f (a i) (b i) := by
  rw [List.zipWith_map]
  induction (List.range n) with
  | nil => rfl
  | cons x l ih => simp [ih]

theorem replicate_range {α : Type} (n : Nat) (a : α) : List.replicate n a = (List.range n).map fun _ => a := by
  simp

theorem setField_mid {α β : Type} (f : α → β → α) (bs : List β) : ∀ (pre mid post : List α),
    mid.length = bs.length →
    setField f pre.length bs (pre ++ mid ++ post) = .ok (pre ++ List.zipWith f mid bs ++ post) := by
  induction bs with
  | nil =>
    intro pre mid post h
    have : mid = [] := List.length_eq_zero_iff.mp h
    subst this
    simp [setField]
  | cons b bs ih =>
    intro pre mid post h
    cases mid with
    | nil => simp at h
    | cons m mid =>
      have hl : pre.length < (pre ++ m :: mid ++ post).length := by simp
      rw [setField, Outcome.get_of_lt hl, Outcome.bind_ok, Outcome.set_of_lt hl, Outcome.bind_ok]
      have e1 : (pre ++ m :: mid ++ post)[pre.length] = m := by simp
      have e2 : (pre ++ m :: mid ++ post).set pre.length (f m b) = (pre ++ [f m b]) ++ mid ++ post := by
        simp
      rw [e1, e2]
      have := ih (pre ++ [f m b]) mid post (by simpa using h)
      rw [List.length_append, List.length_singleton] at this
      rw [this]
      simp

theorem setField_range {α β : Type} (f : α → β → α) (n : Nat) (a : Nat → α) (b : Nat → β) (pre post : List α) :
    setField f pre.length ((List.range n).map b) (pre ++ (List.range n).map a ++ post) =
      .ok (pre ++ ((List.range n).map fun i => f (a i) (b i)) ++ post) := by
  rw [setField_mid f _ pre _ post (by simp), zipWith_range]

theorem readDataset_entries {α : Type} (zero : α) (np : Nat) (d : Option (List α))
    (h : ∀ l ∈ d, l.length ≤ np) : readDataset zero np d = .ok ((List.range np).map (entry zero d)) := by
  cases d with
  | none =>
    simp only [readDataset]
    rw [replicate_range]
    rfl
  | some l =>
    have hl := h l rfl
    simp only [readDataset, if_pos hl]
    congr 1
    apply List.ext_getElem
    · simp; omega
    · intro i h1 h2
      simp only [List.length_map, List.length_range] at h2
      rw [List.getElem_append]
      simp only [List.getElem_map, List.getElem_range, entry]
      split
      · rename_i hi
        rw [List.getElem?_eq_getElem hi]
      · rename_i hi
        rw [List.getElem?_eq_none (by omega)]
        simp

theorem readEither_entries {α : Type} (zero : α) (np : Nat) (d other : Option (List α))
    (h : ∀ l ∈ d, l.length ≤ np) (h' : ∀ l ∈ other, l.length ≤ np) :
    readEither zero np d other = .ok ((List.range np).map (entry zero (if d.isSome then d else other))) := by
  cases d with
  | none => exact readDataset_entries _ _ _ h'
  | some v => exact readDataset_entries _ _ _ h

theorem entry_map {α β : Type} (f : α → β) (za : α) (zb : β) (hz : f za = zb) (d : Option (List α)) (i : Nat) :
    entry zb (d.map fun l => l.map f) i = f (entry za d i) := by
  cases d with
  | none => simp [entry, hz]
  | some l =>
    simp only [entry, Option.map_some, List.getElem?_map]
    cases l[i]? <;> simp [hz]

variable {K : Type} [Field K] [LinearOrder K] [IsStrictOrderedRing K] [FloorRing K]

theorem hdfInt_zero (n : Nat) (hn : n = 4 ∨ n = 8) : hdfInt n 0 = 0 := by
  obtain rfl | rfl := hn <;> decide

/-- How a snapshot with header `h` is read. -/
def readingOf (env : HydroEnv K) (h : HydroHeader K) : HydroReading K where
  place x := if env.periodic = true then positionModulus x h.boxSize else x
  velScale := env.sqrt h.time
  massTable := h.massTable
  dmOnly := env.dmOnly
  thermal := env.thermal

theorem readFields_ok (env : HydroEnv K) (hb : env.intBytes = 4 ∨ env.intBytes = 8) (h : HydroHeader K)
    (t : Fin 6) (np : Nat) (g : HydroGroup K) (hg : g.AtMost np) (m : Nat → HostedParticle K)
    (hm : ∀ i, (m i).1.energy = none ∧ (m i).1.type = none) (pre post : List (HostedParticle K)) :
    readFields env h t np g pre.length (pre ++ (List.range np).map m ++ post) =
      .ok (pre ++ ((List.range np).map fun i =>
        ((readingOf env h).particle t (g.record (hdfInt env.intBytes) i), (m i).2)) ++ post) := by
  have hclip := hdfInt_zero _ hb
  unfold readFields
  rw [readDataset_entries _ _ _ hg.coordinates, Outcome.bind_ok]
  have hx : (if env.periodic then ((List.range np).map (entry (fun _ => (0 : K)) g.coordinates)).map
      (fun (x : Fin 3 → K) (j : Fin 3) => positionModulus (x j) h.boxSize)
      else (List.range np).map (entry (fun _ => (0 : K)) g.coordinates)) =
      (List.range np).map fun i j => (readingOf env h).place (entry (fun _ => (0 : K)) g.coordinates i j) := by
    unfold readingOf
    cases env.periodic <;> simp
  simp only [hx]
  rw [setField_range, Outcome.bind_ok]
  rw [readEither_entries _ _ _ _ hg.velocities hg.velocity, Outcome.bind_ok, setField_range, Outcome.bind_ok,
    readDataset_entries _ _ _ (by
      intro l hl
      obtain ⟨x, hx, rfl⟩ := Option.map_eq_some_iff.mp hl
      simpa using hg.particleIDs x hx), Outcome.bind_ok, setField_range, Outcome.bind_ok]
  have hid : ∀ i, entry 0 (g.particleIDs.map fun l => l.2.map (hdfInt env.intBytes)) i =
      hdfInt env.intBytes (entry 0 (g.particleIDs.map Prod.snd) i) := by
    intro i
    rw [← entry_map (hdfInt env.intBytes) 0 0 hclip]
    simp [Function.comp_def]
  simp only [hid]
  have hmass : readMasses h t np g =
      .ok ((List.range np).map fun i => if h.massTable t = 0 then
        entry 0 (if g.masses.isSome then g.masses else g.mass) i else h.massTable t) := by
    unfold readMasses
    by_cases h0 : h.massTable t = 0
    · simp only [if_pos h0]
      exact readEither_entries _ _ _ _ hg.masses hg.mass
    · simp only [if_neg h0]
      rw [replicate_range]
  rw [hmass, Outcome.bind_ok, setField_range, Outcome.bind_ok]
  cases hd : env.dmOnly with
  | true =>
    simp only [if_true]
    congr 3
    apply List.map_congr_left
    intro i _
    have := hm i
    simp [readingOf, HydroReading.particle, HydroGroup.record, hd, this]
  | false =>
    simp only [Bool.false_eq_true, if_false]
    unfold readEnergies
    by_cases ht : env.thermal = true ∧ t = 0
    · rw [if_pos ht, readDataset_entries _ _ _ hg.internalEnergy, Outcome.bind_ok, setField_range, Outcome.bind_ok,
        replicate_range, setField_range]
      congr 3
      apply List.map_congr_left
      intro i _
      simp [readingOf, HydroReading.particle, HydroGroup.record, hd, ht]
    · rw [if_neg ht, Outcome.bind_ok, replicate_range, setField_range]
      congr 3
      apply List.map_congr_left
      intro i _
      have := hm i
      simp [readingOf, HydroReading.particle, HydroGroup.record, hd, ht, this]

/-- Particle `i` of type `t` in memory. -/
def hydroSlot (env : HydroEnv K) (h : HydroHeader K) (hosts : Bool) (blank : HostedParticle K) (t : Fin 6)
    (g : Option (HydroGroup K)) (i : Nat) : HostedParticle K :=
  match g with
  | none => blank
  | some g => ((readingOf env h).particle t (g.record (hdfInt env.intBytes) i),
      if hosts then some (hostOf (g.record (hdfInt env.intBytes) i).group) else blank.2)

/-- The particles of a file in memory. -/
def hydroOut (env : HydroEnv K) (h : HydroHeader K) (hosts : Bool) (blank : HostedParticle K) (ts : List (Fin 6))
    (f : HydroFile K) : List (HostedParticle K) :=
  ts.flatMap fun t => (List.range (hydroCount env f t)).map (hydroSlot env h hosts blank t (f.parts t))

theorem hydroOut_cons (env : HydroEnv K) (h : HydroHeader K) (hosts : Bool) (blank : HostedParticle K) (t : Fin 6)
    (ts : List (Fin 6)) (f : HydroFile K) : hydroOut env h hosts blank (t :: ts) f =
      (List.range (hydroCount env f t)).map (hydroSlot env h hosts blank t (f.parts t)) ++
        hydroOut env h hosts blank ts f := rfl

theorem hydroOut_length (env : HydroEnv K) (h : HydroHeader K) (hosts : Bool) (blank : HostedParticle K)
    (ts : List (Fin 6)) (f : HydroFile K) :
    (hydroOut env h hosts blank ts f).length = (ts.map (hydroCount env f)).sum := by
  induction ts with
  | nil => rfl
  | cons t ts ih =>
    rw [hydroOut, List.flatMap_cons, List.length_append, List.map_cons, List.sum_cons, ← ih]
    simp [hydroOut]

theorem readHydroType_ok (env : HydroEnv K) (hb : env.intBytes = 4 ∨ env.intBytes = 8) (h : HydroHeader K)
    (hosts : Bool) (t : Fin 6) (np : Nat) (g : HydroGroup K) (hg : g.AtMost np)
    (hs : hosts = false → ∀ l ∈ g.particleIDs, l.1 ≤ env.intBytes) (blank : HostedParticle K)
    (hbl : blank.1.energy = none ∧ blank.1.type = none) (pre post : List (HostedParticle K)) :
    readHydroType env h hosts t np g pre.length (pre ++ List.replicate np blank ++ post) =
      .ok (pre ++ (List.range np).map (hydroSlot env h hosts blank t (some g)) ++ post) := by
  have hclip := hdfInt_zero _ hb
  have hr := readFields_ok env hb h t np g hg (fun _ => blank) (fun _ => hbl) pre post
  rw [replicate_range]
  unfold readHydroType
  cases hosts with
  | true =>
    rw [if_pos rfl, hr, Outcome.bind_ok]
    unfold readHosts
    rw [readDataset_entries _ _ _ (by
      intro l hl
      obtain ⟨x, hx, rfl⟩ := Option.map_eq_some_iff.mp hl
      simpa using hg.groupNumber x hx), Outcome.bind_ok, setField_range]
    congr 3
    apply List.map_congr_left
    intro i _
    rw [entry_map (hdfInt env.intBytes) 0 0 hclip]
    simp [hydroSlot, HydroGroup.record]
  | false =>
    have hc : checkIdSize env g = .ok () := by
      unfold checkIdSize
      have := hs rfl
      cases e : g.particleIDs with
      | none => rfl
      | some l => simp only; rw [if_pos (this l e)]
    rw [if_neg (by simp), hc, Outcome.bind_ok, hr]
    congr 3

theorem readHydroTypes_ok (env : HydroEnv K) (hb : env.intBytes = 4 ∨ env.intBytes = 8) (h : HydroHeader K)
    (hosts : Bool) (f : HydroFile K) (hf : f.Readable env.dmOnly (!hosts) env.intBytes) (blank : HostedParticle K)
    (hbl : blank.1.energy = none ∧ blank.1.type = none) (base : Nat) : ∀ (ts : List (Fin 6)) (o : Nat)
    (pre post : List (HostedParticle K)), pre.length = base + o →
    readHydroTypes env h hosts f base ts (compileOffsetsFrom o (ts.map (hydroCount env f))).1
        (pre ++ List.replicate ((ts.map (hydroCount env f)).sum) blank ++ post) =
      .ok (pre ++ hydroOut env h hosts blank ts f ++ post)
  | [], o, pre, post, hp => by simp [readHydroTypes, hydroOut]
  | t :: ts, o, pre, post, hp => by
    rw [List.map_cons, compileOffsetsFrom, List.sum_cons]
    simp only
    rw [readHydroTypes]
    by_cases h0 : hydroCount env f t = 0
    · rw [if_pos h0]
      have := readHydroTypes_ok env hb h hosts f hf blank hbl base ts (o + hydroCount env f t) pre post (by omega)
      rw [h0, Nat.zero_add]
      rw [h0] at this
      rw [this]
      simp [hydroOut, h0]
    · rw [if_neg h0]
      have hn : hydroCount env f t = f.npart t := by
        unfold hydroCount at h0 ⊢
        split at h0
        · simp at h0
        · rename_i h1; rw [if_neg h1]
      have hsplit : pre ++ List.replicate (hydroCount env f t + (ts.map (hydroCount env f)).sum) blank ++ post =
          pre ++ List.replicate (hydroCount env f t) blank ++
            (List.replicate ((ts.map (hydroCount env f)).sum) blank ++ post) := by
        rw [← List.replicate_append_replicate]; simp only [List.append_assoc]
      cases e : f.parts t with
      | none =>
        simp only
        rw [hsplit, ← List.append_assoc]
        rw [readHydroTypes_ok env hb h hosts f hf blank hbl base ts (o + hydroCount env f t)
          (pre ++ List.replicate (hydroCount env f t) blank) post (by simp; omega)]
        rw [hydroOut_cons, e, ← List.append_assoc, replicate_range]
        rfl
      | some g =>
        simp only
        obtain ⟨h1, h2⟩ := hf t (by
          intro hd
          by_contra ht
          exact h0 (by unfold hydroCount; rw [if_pos ⟨hd, ht⟩])) (by rwa [← hn]) g e
        rw [← hn] at h1
        rw [hsplit, ← hp, readHydroType_ok env hb h hosts t _ g h1 (fun hh => h2 (by simp [hh])) blank hbl,
          Outcome.bind_ok, ← List.append_assoc,
          readHydroTypes_ok env hb h hosts f hf blank hbl base ts (o + hydroCount env f t) _ post (by simp; omega)]
        rw [hydroOut_cons, e, ← List.append_assoc]

/-- The number of wanted particles of a file. -/
def hydroNp (env : HydroEnv K) (f : HydroFile K) : Nat := ((List.finRange 6).map (hydroCount env f)).sum

theorem readHydroFile_ok (env : HydroEnv K) (hb : env.intBytes = 4 ∨ env.intBytes = 8) (h : HydroHeader K)
    (hosts : Bool) (f : HydroFile K) (hf : f.Readable env.dmOnly (!hosts) env.intBytes) (blank : HostedParticle K)
    (hbl : blank.1.energy = none ∧ blank.1.type = none) (pre post : List (HostedParticle K)) :
    readHydroFile env h hosts f pre.length (pre ++ List.replicate (hydroNp env f) blank ++ post) =
      .ok (pre ++ hydroOut env h hosts blank (List.finRange 6) f ++ post) := by
  unfold readHydroFile compileOffsets
  exact readHydroTypes_ok env hb h hosts f hf blank hbl pre.length (List.finRange 6) 0 pre post (by omega)

theorem hydroOffsets_ok (env : HydroEnv K) (files : List (HydroFile K)) : ∀ (n i o : Nat), i + n = files.length →
    hydroOffsets env files n i o = .ok ((compileOffsetsFrom o ((files.map (hydroNp env)).drop i)).1.zip
      ((files.map (hydroNp env)).drop i))
  | 0, i, o, h => by
    rw [List.drop_of_length_le (by simp; omega)]
    rfl
  | n + 1, i, o, h => by
    have hi : i < files.length := by omega
    have ho : openHydro files i = .ok files[i] := by
      unfold openHydro; rw [List.getElem?_eq_getElem hi]
    rw [hydroOffsets, ho, Outcome.bind_ok]
    simp only
    rw [hydroOffsets_ok env files n (i + 1) _ (by omega), Outcome.bind_ok,
      List.drop_eq_getElem_cons (i := i) (by simpa using hi), compileOffsetsFrom]
    simp [hydroNp]

theorem readHydroFiles_ok (env : HydroEnv K) (hb : env.intBytes = 4 ∨ env.intBytes = 8) (h : HydroHeader K)
    (hosts : Bool) (files : List (HydroFile K)) (hf : ∀ f ∈ files, f.Readable env.dmOnly (!hosts) env.intBytes) (blank : HostedParticle K)
    (hbl : blank.1.energy = none ∧ blank.1.type = none)
    (skip : Nat) : ∀ (n iFile : Nat) (pre : List (HostedParticle K)), skip ≤ iFile → iFile + n ≤ files.length →
    pre.length = (((files.map (hydroNp env)).drop skip).take (iFile - skip)).sum →
    readHydroFiles env h hosts files (compileOffsets (files.map (hydroNp env))).1 skip n iFile
        (pre ++ List.replicate (((files.map (hydroNp env)).drop iFile).take n).sum blank)
      = .ok (pre ++ ((files.drop iFile).take n).flatMap (hydroOut env h hosts blank (List.finRange 6)))
  | 0, iFile, pre, _, _, _ => by simp [readHydroFiles]
  | n + 1, iFile, pre, h1, h2, hp => by
    have hget : ∀ i, i < files.length → Outcome.get (compileOffsets (files.map (hydroNp env))).1 i
        = .ok (((files.map (hydroNp env)).take i).sum) := by
      intro i hi
      unfold Outcome.get compileOffsets
      rw [compileOffsetsFrom_get 0 _ i (by simpa using hi)]
      simp
    have hi : iFile < files.length := by omega
    have ho : openHydro files iFile = .ok files[iFile] := by
      unfold openHydro; rw [List.getElem?_eq_getElem hi]
    rw [readHydroFiles, hget _ hi, Outcome.bind_ok, hget _ (by omega), Outcome.bind_ok, ho, Outcome.bind_ok]
    have hsum : ((files.map (hydroNp env)).take iFile).sum = ((files.map (hydroNp env)).take skip).sum + pre.length := by
      rw [hp, ← List.sum_append]
      congr 1
      conv_lhs => rw [show iFile = skip + (iFile - skip) by omega]
      rw [List.take_add]
    rw [if_neg (by omega), hsum, Nat.add_sub_cancel_left]
    have hdrop : files.drop iFile = files[iFile] :: files.drop (iFile + 1) := List.drop_eq_getElem_cons hi
    have hmd : (((files.map (hydroNp env)).drop iFile).take (n + 1)).sum =
        hydroNp env files[iFile] + (((files.map (hydroNp env)).drop (iFile + 1)).take n).sum := by
      rw [List.drop_eq_getElem_cons (by simpa using hi), List.take_succ_cons, List.sum_cons, List.getElem_map]
    rw [hmd, ← List.replicate_append_replicate, ← List.append_assoc,
      readHydroFile_ok env hb h hosts _ (hf _ (List.getElem_mem hi)) blank hbl, Outcome.bind_ok]
    have := readHydroFiles_ok env hb h hosts files hf blank hbl skip n (iFile + 1)
      (pre ++ hydroOut env h hosts blank (List.finRange 6) files[iFile])
      (by omega) (by omega) (by
        rw [List.length_append, hydroOut_length, hp,
          show iFile + 1 - skip = (iFile - skip) + 1 by omega, sum_take_succ' _ _ (by simp; omega)]
        congr 1
        simp only [List.getElem_drop, List.getElem_map]
        rw [hydroNp]
        congr 4
        omega)
    rw [this, hdrop, List.take_succ_cons, List.flatMap_cons, List.append_assoc]

theorem loadHydro_ok (env : HydroEnv K) (hb : env.intBytes = 4 ∨ env.intBytes = 8) {P : Nat} (hP : 0 < P)
    (hosts : Bool) (f0 : HydroFile K) (fs : List (HydroFile K)) (hn : f0.header.numFiles = (f0 :: fs).length)
    (hbox : f0.header.boxSize = env.boxSize) (hf : ∀ f ∈ f0 :: fs, f.Readable env.dmOnly (!hosts) env.intBytes)
    (blank : HostedParticle K) (hbl : blank.1.energy = none ∧ blank.1.type = none) :
    loadHydro env P hosts blank (f0 :: fs) = .ok fun r =>
      ((f0.header.time, f0.header.omega0, f0.header.omegaLambda),
        (seg (f0 :: fs) (firstFile (f0 :: fs).length P) r.val).flatMap
          (hydroOut env f0.header hosts blank (List.finRange 6))) := by
  have hh : readHydroHeader env (f0 :: fs) = .ok f0.header := by
    unfold readHydroHeader openHydro
    simp only [List.getElem?_cons_zero]
    rw [Outcome.bind_ok, if_pos hbox]
  unfold loadHydro
  rw [hh, Outcome.bind_ok, hn, hydroOffsets_ok env _ _ 0 0 (by simp), Outcome.bind_ok, List.drop_zero]
  rw [List.map_fst_zip (by simp [compileOffsetsFrom_length]), List.map_snd_zip (by simp [compileOffsetsFrom_length])]
  generalize hfiles : f0 :: fs = files at hf ⊢
  apply allRanks_ok
  intro r
  rw [Props.assignTasks_ok r.val P files.length r.isLt, Outcome.bind_ok]
  have h1 := firstFile_mono files.length P r.val
  have h2 : firstFile files.length P (r.val + 1) ≤ files.length := firstFile_le files.length hP r.isLt
  have := readHydroFiles_ok env hb f0.header hosts files hf blank hbl (firstFile files.length P r.val)
    (firstFile files.length P (r.val + 1) - firstFile files.length P r.val) (firstFile files.length P r.val) []
    (Nat.le_refl _) (by omega) (by simp)
  simp only [List.nil_append] at this
  unfold compileOffsets at this
  simp only
  unfold firstFile at this
  rw [this, Outcome.bind_ok]
  rfl

end HBT
