import Verif.Model.Catalogue
import Verif.Lemmas.Mpi
import Verif.Props.MyMath
import Verif.Spec.Run
/-!
# C35: saved catalogues reload identically on any number of processes
-/
namespace HBT.Props
open HBT HBT.Model HBT.Spec
variable {K D : Type}

/-- The ids of the particles of `s`. -/
def idsOf (s : Sub K D) : List Int := s.particles.map Particle.id

theorem writeIds_ok (len : Sub K D → Nat) (subs : List (Sub K D)) (h : ∀ s ∈ subs, len s ≤ s.particles.length) (front : List Int) :
    writeIds len (front ++ idBuffer subs) front.length subs = .ok (subs.map (fun s => (idsOf s).take (len s))) := by
  induction subs generalizing front with
  | nil => rfl
  | cons s rest ih =>
    have hs := h s (by simp)
    have hbuf : idBuffer (s :: rest) = idsOf s ++ idBuffer rest := rfl
    have hlen : (idsOf s).length = s.particles.length := by simp [idsOf]
    have h1 : slice (front ++ idBuffer (s :: rest)) front.length (len s) = .ok ((idsOf s).take (len s)) := by
      unfold slice
      rw [if_pos (by rw [List.length_append, hbuf, List.length_append, hlen]; omega), List.drop_left, hbuf,
        List.take_append_of_le_length (by omega)]
    have h2 := ih (fun u hu => h u (by simp [hu])) (front ++ idsOf s)
    rw [List.length_append, hlen, List.append_assoc, ← hbuf] at h2
    rw [writeIds, h1, Outcome.bind_ok, h2, Outcome.bind_ok]
    rfl

/-- The file a process writes. -/
def fileOf {P : Nat} (snapId : Int) (st : Fin P → List (Sub K D)) (r : Fin P) : SubFile K D :=
  { numberOfFiles := P, snapshotId := snapId, numAll := totalSubs st, nested := (st r).map Sub.nested,
    boundIds := (st r).map (fun s => (idsOf s).take s.nbound),
    table := (st r).map (fun s => { s with particles := [], nested := [] }), mostBound := (st r).map mostBoundId }

theorem perform_sub {P : Nat} (snapId : Int) (st : Fin P → List (Sub K D)) (hst : ∀ r, ∀ s ∈ st r, s.nbound ≤ s.particles.length)
    (disk : Disk K D) (r : Fin P) :
    perform snapId st disk (.sub r) = .ok { disk with sub := fun i => if i = r.val then some (fileOf snapId st r) else disk.sub i } := by
  have := writeIds_ok Sub.nbound (st r) (hst r) []
  rw [List.nil_append, List.length_nil] at this
  rw [perform, writeSub, this]
  rfl

theorem perform_src {P : Nat} (snapId : Int) (st : Fin P → List (Sub K D)) (disk : Disk K D) (r : Fin P) :
    perform snapId st disk (.src r) = .ok { disk with src := fun i => if i = r.val then some ((st r).map idsOf) else disk.src i } := by
  have := writeIds_ok (fun s => s.particles.length) (st r) (fun _ _ => le_refl _) []
  rw [List.nil_append, List.length_nil] at this
  have e : (st r).map (fun s => (idsOf s).take s.particles.length) = (st r).map idsOf := by
    refine List.map_congr_left (fun s _ => ?_)
    rw [List.take_of_length_le (by simp [idsOf])]
  rw [e] at this
  rw [perform, writeSrc, this]
  rfl

/-- The directory after the operations `ops`. -/
theorem saveOps_ok {P : Nat} (snapId : Int) (st : Fin P → List (Sub K D)) (hst : ∀ r, ∀ s ∈ st r, s.nbound ≤ s.particles.length)
    (ops : List (WriteOp P)) (disk : Disk K D) :
    ∃ disk', saveOps snapId st ops disk = .ok disk' ∧
      (∀ r, .sub r ∈ ops → disk'.sub r.val = some (fileOf snapId st r)) ∧
      (∀ r, .src r ∈ ops → disk'.src r.val = some ((st r).map idsOf)) ∧
      (∀ i, (∀ r : Fin P, .sub r ∈ ops → r.val ≠ i) → disk'.sub i = disk.sub i) ∧
      (∀ i, (∀ r : Fin P, .src r ∈ ops → r.val ≠ i) → disk'.src i = disk.src i) := by
  induction ops generalizing disk with
  | nil => exact ⟨disk, rfl, by simp, by simp, by simp, by simp⟩
  | cons op ops ih =>
    cases op with
    | sub r0 =>
      obtain ⟨disk', e, h1, h2, h3, h4⟩ := ih { disk with sub := fun i => if i = r0.val then some (fileOf snapId st r0) else disk.sub i }
      refine ⟨disk', ?_, ?_, ?_, ?_, ?_⟩
      · rw [saveOps, List.foldlM_cons, perform_sub snapId st hst, Outcome.bind_ok]
        exact e
      · intro r hr
        by_cases hm : .sub r ∈ ops
        · exact h1 r hm
        · have hr0 : r = r0 := by
            rcases List.mem_cons.1 hr with h | h
            · cases h; rfl
            · exact absurd h hm
          rw [h3 r.val (fun r' hr' he => hm (by rw [← Fin.ext he]; exact hr'))]
          simp [hr0]
      · intro r hr
        exact h2 r (by simpa using hr)
      · intro i hi
        rw [h3 i (fun r hr => hi r (by simp [hr]))]
        simp only
        rw [if_neg (fun h => hi r0 (by simp) h.symm)]
      · intro i hi
        exact h4 i (fun r hr => hi r (by simp [hr]))
    | src r0 =>
      obtain ⟨disk', e, h1, h2, h3, h4⟩ := ih { disk with src := fun i => if i = r0.val then some ((st r0).map idsOf) else disk.src i }
      refine ⟨disk', ?_, ?_, ?_, ?_, ?_⟩
      · rw [saveOps, List.foldlM_cons, perform_src snapId st, Outcome.bind_ok]
        exact e
      · intro r hr
        exact h1 r (by simpa using hr)
      · intro r hr
        by_cases hm : .src r ∈ ops
        · exact h2 r hm
        · have hr0 : r = r0 := by
            rcases List.mem_cons.1 hr with h | h
            · cases h; rfl
            · exact absurd h hm
          rw [h4 r.val (fun r' hr' he => hm (by rw [← Fin.ext he]; exact hr'))]
          simp [hr0]
      · intro i hi
        exact h3 i (fun r hr => hi r (by simp [hr]))
      · intro i hi
        rw [h4 i (fun r hr => hi r (by simp [hr]))]
        simp only
        rw [if_neg (fun h => hi r0 (by simp) h.symm)]

/-- The files of the catalogue `st` are in the directory. -/
structure Holds {P : Nat} (snapId : Int) (st : Fin P → List (Sub K D)) (disk : Disk K D) : Prop where
  sub : ∀ r : Fin P, disk.sub r.val = some (fileOf snapId st r)
  src : ∀ r : Fin P, disk.src r.val = some ((st r).map idsOf)

theorem fillSubs_eq (blank : D) (subs : List (Sub K D)) (ids : Sub K D → List Int) :
    fillSubs blank (subs.map (fun s => { s with particles := [], nested := [] })) (subs.map ids) (subs.map Sub.nested) =
      subs.map (fun s => { s with particles := (ids s).map (fun i => ⟨i, blank⟩) }) := by
  induction subs with
  | nil => rfl
  | cons s rest ih => simp only [List.map_cons, fillSubs, ih]

theorem readFile_ok {P : Nat} {snapId : Int} {st : Fin P → List (Sub K D)} {disk : Disk K D} (h : Holds snapId st disk)
    (w : Want) (blank : D) (r : Fin P) :
    readFile w blank snapId disk r.val = .ok ((st r).map (reloaded w blank)) := by
  rw [readFile, h.sub r]
  simp only [fileOf, decide_true, Outcome.assert_true, Outcome.bind_ok, List.length_map]
  split_ifs with h0
  · rw [List.length_eq_zero_iff.1 h0]; rfl
  · cases w with
    | table =>
      simp only [Outcome.bind_ok, List.length_map, decide_true, Outcome.assert_true, List.map_map]
      have := fillSubs_eq blank (st r) (fun _ => [])
      refine congrArg Outcome.ok (Eq.trans ?_ this)
      rfl
    | bound =>
      simp only [Outcome.bind_ok, List.length_map, decide_true, Outcome.assert_true]
      rw [fillSubs_eq]
      refine congrArg Outcome.ok (List.map_congr_left (fun s _ => ?_))
      simp only [reloaded, idsOf, List.map_take]
    | source =>
      rw [h.src r]
      simp only [Outcome.bind_ok, List.length_map, decide_true, Outcome.assert_true]
      rw [fillSubs_eq]
      rfl

theorem readFiles_ok {P : Nat} {snapId : Int} {st : Fin P → List (Sub K D)} {disk : Disk K D} (h : Holds snapId st disk)
    (w : Want) (blank : D) (n b : Nat) (hb : b + n ≤ P) :
    readFiles w blank snapId disk n b = .ok ((List.range' b n).flatMap (fun i =>
      if hi : i < P then (st ⟨i, hi⟩).map (reloaded w blank) else [])) := by
  induction n generalizing b with
  | zero => rfl
  | succ n ih =>
    rw [readFiles, show b = (⟨b, by omega⟩ : Fin P).val from rfl, readFile_ok h, Outcome.bind_ok, ih (b + 1) (by omega),
      Outcome.bind_ok, List.range'_succ, List.flatMap_cons, dif_pos (by omega)]

theorem ranges_join (f : Nat → Nat) (hf : ∀ i, f i ≤ f (i + 1)) (h0 : f 0 = 0) (k : Nat) :
    (List.range k).flatMap (fun w => List.range' (f w) (f (w + 1) - f w)) = List.range (f k) := by
  induction k with
  | zero => simp [h0]
  | succ k ih =>
    rw [List.range_succ, List.flatMap_append, ih, List.flatMap_cons, List.flatMap_nil, List.append_nil]
    have := hf k
    obtain ⟨d, hd⟩ : ∃ d, f (k + 1) = f k + d := ⟨f (k + 1) - f k, by omega⟩
    rw [hd, Nat.add_sub_cancel_left, List.range_add, List.range'_eq_map_range]

theorem totalSubs_eq {P : Nat} (st : Fin P → List (Sub K D)) : totalSubs st = (everyone st).length := by
  rw [totalSubs, everyone, List.length_flatten]

theorem ofFn_eq_range {α : Type} {P : Nat} (f : Fin P → List α) :
    (List.ofFn f).flatten = (List.range P).flatMap (fun i => if h : i < P then f ⟨i, h⟩ else []) := by
  rw [List.flatMap_def]
  congr 1
  refine List.ext_getElem (by simp) (fun i h1 h2 => ?_)
  simp only [List.length_ofFn] at h1
  simp [h1]

theorem everyone_map {P : Nat} (st : Fin P → List (Sub K D)) (f : Sub K D → Sub K D) :
    everyone (fun r => (st r).map f) = (everyone st).map f := by
  unfold everyone
  rw [List.map_flatten, List.map_ofFn]
  rfl

/-- Loading the catalogue `st` of `P` processes on `P'` processes: the subhaloes are distributed anew, in the same order. -/
theorem load_ok {P P' : Nat} (hP : 0 < P) (hP' : 0 < P') {snapId : Int} {st : Fin P → List (Sub K D)} {disk : Disk K D}
    (hh : Holds snapId st disk) (w : Want) (blank : D) {minIndex index : Int} (hindex : minIndex ≤ index) :
    ∃ orig : Fin P' → List (Sub K D), everyone orig = everyone st ∧
      loadSubs P' w blank minIndex index snapId disk = .ok (fun r => (orig r).map (reloaded w blank)) ∧
      ∀ r : Fin P', orig r = (List.range' (P / P' * r.val + min (P % P') r.val)
        ((P / P' * (r.val + 1) + min (P % P') (r.val + 1)) - (P / P' * r.val + min (P % P') r.val))).flatMap
          (fun i => if hi : i < P then st ⟨i, hi⟩ else []) := by
  set f : Nat → Nat := fun w => P / P' * w + min (P % P') w with hf
  have hmono : ∀ i, f i ≤ f (i + 1) := by
    intro i
    simp only [hf, Nat.mul_succ]
    generalize P / P' = q
    omega
  have hlast : f P' = P := by
    have hdm := Nat.div_add_mod P P'
    have hmod := Nat.mod_lt P hP'
    simp only [hf]
    rw [Nat.min_eq_left hmod.le, Nat.mul_comm]
    exact hdm
  have hle : ∀ r : Fin P', f (r.val + 1) ≤ P := by
    intro r
    have : Monotone f := monotone_nat_of_le_succ hmono
    calc f (r.val + 1) ≤ f P' := this r.isLt
      _ = P := hlast
  set part : Nat → List (Sub K D) := fun i => if hi : i < P then st ⟨i, hi⟩ else [] with hpart
  set orig : Fin P' → List (Sub K D) := fun r => (List.range' (f r.val) (f (r.val + 1) - f r.val)).flatMap part with horig
  have heach : ∀ r : Fin P', (do
      let t ← assignTasks r.val P' P
      readFiles w blank snapId disk (t.2 - t.1) t.1) = Outcome.ok ((orig r).map (reloaded w blank)) := by
    intro r
    rw [assignTasks_ok r.val P' P r.isLt, Outcome.bind_ok]
    have h3 := hmono r.val
    have h4 := hle r
    have h5 := readFiles_ok hh w blank (f (r.val + 1) - f r.val) (f r.val) (by omega)
    refine h5.trans ?_
    congr 1
    rw [horig]
    simp only
    rw [List.map_flatMap]
    refine List.flatMap_congr (fun i _ => ?_)
    simp only [hpart]
    split <;> simp
  have hall : everyone orig = everyone st := by
    have e1 : everyone orig = (List.range P').flatMap (fun i => (List.range' (f i) (f (i + 1) - f i)).flatMap part) := by
      rw [everyone, ofFn_eq_range]
      refine List.flatMap_congr (fun i hi => ?_)
      rw [dif_pos (List.mem_range.1 hi)]
    rw [e1, ← List.flatMap_assoc, ranges_join f hmono (by simp [hf]), hlast, everyone, ofFn_eq_range]
  refine ⟨orig, hall, ?_, fun r => rfl⟩
  have h0 := hh.sub ⟨0, hP⟩
  simp only at h0
  rw [loadSubs, if_neg (by omega), h0]
  simp only [fileOf]
  rw [allRanks_ok _ _ heach, Outcome.bind_ok]
  refine if_neg (not_not.2 ?_)
  show totalSubs _ = totalSubs st
  rw [totalSubs_eq, totalSubs_eq, ← hall, everyone_map, List.length_map]

/-- C35. A catalogue `st` of `P` processes is saved into a directory that may hold anything; the files are
written in any order. Loading it with any number `P'` of processes succeeds; the subhaloes of the
reading processes, one process after the other, are those of the writing processes, in the same order. -/
theorem C35_round_trip {P P' : Nat} (hP : 0 < P) (hP' : 0 < P') (snapId : Int) (st : Fin P → List (Sub K D))
    (hst : ∀ r, ∀ s ∈ st r, s.nbound ≤ s.particles.length) (ops : List (WriteOp P)) (hops : ∀ r, .sub r ∈ ops ∧ .src r ∈ ops)
    (disk : Disk K D) (w : Want) (blank : D) (minIndex index : Int) (hindex : minIndex ≤ index) :
    ∃ disk' ld, saveOps snapId st ops disk = .ok disk' ∧ loadSubs P' w blank minIndex index snapId disk' = .ok ld ∧
      everyone ld = (everyone st).map (reloaded w blank) := by
  obtain ⟨disk', e, h1, h2, _, _⟩ := saveOps_ok snapId st hst ops disk
  have hh : Holds snapId st disk' := ⟨fun r => h1 r (hops r).1, fun r => h2 r (hops r).2⟩
  obtain ⟨orig, h3, h4, _⟩ := load_ok hP hP' hh w blank hindex
  exact ⟨disk', _, e, h4, by rw [everyone_map, h3]⟩

/-- Loading with the number of processes that wrote the catalogue: each process gets its own subhaloes back. -/
theorem load_same {P : Nat} (hP : 0 < P) {snapId : Int} {st : Fin P → List (Sub K D)} {disk : Disk K D}
    (hh : Holds snapId st disk) (w : Want) (blank : D) {minIndex index : Int} (hindex : minIndex ≤ index) :
    loadSubs P w blank minIndex index snapId disk = .ok (fun r => (st r).map (reloaded w blank)) := by
  obtain ⟨orig, _, h2, h3⟩ := load_ok hP hP hh w blank hindex
  rw [h2]
  congr 1
  funext r
  rw [h3 r, Nat.div_self hP, Nat.mod_self]
  simp [r.isLt]

/-- C35, integrity: whatever is in the directory, if loading succeeds then the number of subhaloes is the
one recorded in the first file. -/
theorem C35_total {P' : Nat} (snapId : Int) (disk : Disk K D) (w : Want) (blank : D) (minIndex index : Int)
    (hindex : minIndex ≤ index) (ld : Fin P' → List (Sub K D))
    (h : loadSubs P' w blank minIndex index snapId disk = .ok ld) :
    ∃ f, disk.sub 0 = some f ∧ (everyone ld).length = f.numAll := by
  rw [loadSubs, if_neg (by omega)] at h
  cases hf : disk.sub 0 with
  | none => rw [hf] at h; cases h
  | some f =>
    rw [hf] at h
    simp only at h
    refine ⟨f, rfl, ?_⟩
    cases hr : allRanks P' (fun r => do
        let t ← assignTasks r.val P' f.numberOfFiles
        readFiles w blank snapId disk (t.2 - t.1) t.1) with
    | ok g =>
      rw [hr, Outcome.bind_ok] at h
      split_ifs at h with hn
      cases h
      rw [← totalSubs_eq]
      exact not_not.1 hn
    | ub => rw [hr] at h; cases h
    | abort => rw [hr] at h; cases h
    | diverge => rw [hr] at h; cases h

/-- C35. The catalogue names the first particle of each subhalo as its most bound particle. -/
theorem C35_most_bound {P : Nat} (snapId : Int) (st : Fin P → List (Sub K D))
    (hst : ∀ r, ∀ s ∈ st r, s.nbound ≤ s.particles.length) (ops : List (WriteOp P)) (hops : ∀ r, .sub r ∈ ops ∧ .src r ∈ ops)
    (disk disk' : Disk K D) (h : saveOps snapId st ops disk = .ok disk') (r : Fin P) :
    ∃ f, disk'.sub r.val = some f ∧ f.mostBound.length = (st r).length ∧
      ∀ (i : Nat) (s : Sub K D), (st r)[i]? = some s → f.mostBound[i]? = some (match s.particles.head? with | some p => p.id | none => -1) := by
  obtain ⟨d, e, h1, _⟩ := saveOps_ok snapId st hst ops disk
  rw [e] at h
  cases h
  refine ⟨_, h1 r (hops r).1, by simp [fileOf], fun i s hs => ?_⟩
  simp only [fileOf, List.getElem?_map, hs, Option.map_some, mostBoundId]
  cases s.particles <;> rfl

/-! ## Example: three writers, two readers -/

/-- A subhalo for the examples. -/
def exCat (id : Int) (nb : Nat) (ids : List Int) (nested : List Int) : Sub Nat Nat :=
  { trackId := id, nbound := nb, mbound := nb, lastMaxMass := nb, particles := ids.map (fun i => ⟨i, 7⟩), nested := nested }

def exCatSt : Fin 3 → List (Sub Nat Nat)
  | 0 => [exCat 0 2 [10, 11, 12] [2], exCat 2 1 [13] []]
  | 1 => []
  | 2 => [exCat 1 0 [] [], exCat 3 3 [20, 21, 22, 23] []]

def exCatOps : List (WriteOp 3) := [.sub 2, .sub 0, .src 0, .src 2, .sub 1, .src 1]

/-- A directory with nothing in it. -/
def emptyDisk : Disk Nat Nat := ⟨fun _ => none, fun _ => none⟩

example : (∀ r, ∀ s ∈ exCatSt r, s.nbound ≤ s.particles.length) ∧ ∀ r, .sub r ∈ exCatOps ∧ .src r ∈ exCatOps := by decide

/-- The loaded lists. -/
def exCatLoad (P : Nat) (w : Want) (disk : Outcome (Disk Nat Nat)) : Outcome (List (List (Sub Nat Nat))) := do
  let d ← disk
  let ld ← loadSubs P w 0 0 5 5 d
  .ok (List.ofFn ld)

example : exCatLoad 2 .bound (saveOps 5 exCatSt exCatOps emptyDisk) =
    .ok [[(exCat 0 2 [] [2]).withParticles [⟨10, 0⟩, ⟨11, 0⟩], (exCat 2 1 [] []).withParticles [⟨13, 0⟩]],
      [exCat 1 0 [] [], (exCat 3 3 [] []).withParticles [⟨20, 0⟩, ⟨21, 0⟩, ⟨22, 0⟩]]] := by decide +kernel

/-! ## What does not hold -/

def exCatOld : Fin 2 → List (Sub Nat Nat)
  | 0 => [exCat 0 2 [10, 11] []]
  | 1 => [exCat 1 2 [20, 21] []]

def exCatNew : Fin 2 → List (Sub Nat Nat)
  | 0 => [exCat 1 3 [20, 21, 22] []]
  | 1 => [exCat 0 2 [10, 12] []]

/-- C35, what does not hold: if a run stops while it overwrites a catalogue, a mixture of the two catalogues is
loaded without error when the totals agree (here one track twice, the other lost). -/
theorem C35_mixed_undetected :
    exCatLoad 1 .source (do
      let d ← saveOps 5 exCatOld [.sub 0, .src 0, .sub 1, .src 1] emptyDisk
      saveOps 5 exCatNew [.sub 0, .src 0] d) =
    .ok [[(exCat 1 3 [] []).withParticles [⟨20, 0⟩, ⟨21, 0⟩, ⟨22, 0⟩], (exCat 1 2 [] []).withParticles [⟨20, 0⟩, ⟨21, 0⟩]]] := by
  decide +kernel

/-- C35, what does not hold: a stop between the two files of a process pairs the new table with the old
source particles, without error. -/
theorem C35_stale_sources_undetected :
    exCatLoad 1 .source (do
      let d ← saveOps 5 exCatOld [.sub 0, .src 0, .sub 1, .src 1] emptyDisk
      saveOps 5 exCatNew [.sub 0, .sub 1] d) =
    .ok [[(exCat 1 3 [] []).withParticles [⟨10, 0⟩, ⟨11, 0⟩], (exCat 0 2 [] []).withParticles [⟨20, 0⟩, ⟨21, 0⟩]]] := by
  decide +kernel

/-- C35, why the bound count must not exceed the number of particles: the list continues in the particles of
the next subhalo. -/
theorem C35_overlong_bound :
    exCatLoad 1 .bound (saveOps (P := 1) 5 (fun _ => [exCat 0 3 [10, 11] [], exCat 1 2 [20, 21] []]) [.sub 0, .src 0] emptyDisk) =
    .ok [[(exCat 0 3 [] []).withParticles [⟨10, 0⟩, ⟨11, 0⟩, ⟨20, 0⟩], (exCat 1 2 [] []).withParticles [⟨20, 0⟩, ⟨21, 0⟩]]] := by
  decide +kernel

end HBT.Props
