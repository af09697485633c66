import Verif.Model.Cosmology
import Verif.Model.Profile
import Verif.Props.ProgramFilesExample
import Mathlib.Analysis.Real.Sqrt
import Verif.Lemmas.SpmdMpi
/-!
# C78: the cosmology of a snapshot, in the energies and in the catalogue
-/
set_option linter.unusedSectionVars false
namespace HBT.Props
open HBT HBT.Model HBT.Spec HBT.MainLoop
variable {K D E S R Q : Type}

/-! ## The expansion -/

section
variable [Field Q] [LinearOrder Q] [IsStrictOrderedRing Q]

/-- What is assumed of `sqrt`. -/
def SquareRoot (sqrt : Q → Q) : Prop := ∀ x, 0 ≤ x → 0 ≤ sqrt x ∧ sqrt x ^ 2 = x

variable {sqrt : Q → Q} (hq : SquareRoot sqrt) {e : Epoch Q} (he : e.Expanding)
include hq he

theorem hubbleRatio_facts : 0 < hubbleRatio sqrt e ∧ hubbleRatio sqrt e ^ 2 = e.expansion := by
  have hx : e.omegaM / (e.scale * e.scale * e.scale) + (1 - e.omegaM - e.omegaLambda) / (e.scale * e.scale) + e.omegaLambda = e.expansion := by
    unfold Epoch.expansion
    ring
  unfold hubbleRatio
  rw [hx]
  obtain ⟨h1, h2⟩ := hq e.expansion he.2.le
  refine ⟨lt_of_le_of_ne h1 fun h => ?_, h2⟩
  rw [← h] at h2
  have := he.2
  rw [← h2] at this
  norm_num at this

/-- C78. The Hubble rate of a snapshot obeys the Friedmann equation for the values in the header, and its matter density is a part `OmegaZ` of the critical
density. -/
theorem C78_friedmann (h0 : Q) (h : 0 ≤ h0) (pi g : Q) :
    IsHubbleRate h0 e (setCosmology sqrt id h0 e).hz ∧
      (setCosmology sqrt id h0 e).omegaZ * criticalDensity pi g (setCosmology sqrt id h0 e).hz = matterDensity pi g h0 e := by
  obtain ⟨h1, h2⟩ := hubbleRatio_facts hq he
  have ha := he.1.ne'
  have hr := h1.ne'
  refine ⟨⟨mul_nonneg h1.le h, ?_⟩, ?_⟩
  · show (hubbleRatio sqrt e * h0) ^ 2 = _
    rw [mul_pow, h2]
    ring
  · show e.omegaM / (e.scale * e.scale * e.scale) / hubbleRatio sqrt e / hubbleRatio sqrt e * (3 * (hubbleRatio sqrt e * h0) ^ 2 / (8 * pi * g)) =
      e.omegaM * (3 * h0 ^ 2 / (8 * pi * g)) / e.scale ^ 3
    generalize 8 * pi * g = w
    field_simp

/-- C78. At scale factor 1 these are the values of today. -/
theorem C78_today (h1 : e.scale = 1) (h0 : Q) : setCosmology sqrt id h0 e = ⟨e.omegaM, e.omegaLambda, 1, h0, e.omegaM⟩ := by
  obtain ⟨hp, h2⟩ := hubbleRatio_facts hq he
  have hx : e.expansion = 1 := by
    unfold Epoch.expansion
    rw [h1]
    ring
  rw [hx] at h2
  have hr : hubbleRatio sqrt e = 1 := by
    have : (hubbleRatio sqrt e - 1) * (hubbleRatio sqrt e + 1) = 0 := by ring_nf; rw [h2]; ring
    rcases mul_eq_zero.1 this with h | h
    · linarith
    · linarith
  unfold setCosmology
  rw [hr, h1]
  simp

/-- C78. The size of a halo at an overdensity `factor` is measured against the critical density of the time of the snapshot: a mass within a comoving radius exceeds the
threshold of `SphericalOverdensitySize` if and only if the mean density within that radius is more than `factor` times the critical density. -/
theorem C78_overdensity (factor h0 pi g : Q) (hpi : 0 < pi) (hg : 0 < g) (m r : Q) (hr : 0 < r) :
    m > rhoVirial factor (setCosmology sqrt id h0 e).hz g (setCosmology sqrt id h0 e).scale * r * r * r ↔
      factor * criticalDensity pi g (setCosmology sqrt id h0 e).hz < sphereDensity pi e m r := by
  show rhoVirial factor (hubbleRatio sqrt e * h0) g e.scale * r * r * r < m ↔ factor * (3 * (hubbleRatio sqrt e * h0) ^ 2 / (8 * pi * g)) <
    m / (4 / 3 * pi * (e.scale * r) ^ 3)
  have ha := he.1
  have hv : 0 < 4 / 3 * pi * (e.scale * r) ^ 3 := by positivity
  rw [lt_div_iff₀ hv]
  have : factor * (3 * (hubbleRatio sqrt e * h0) ^ 2 / (8 * pi * g)) * (4 / 3 * pi * (e.scale * r) ^ 3) =
      rhoVirial factor (hubbleRatio sqrt e * h0) g e.scale * r * r * r := by
    unfold rhoVirial
    field_simp
    ring
  rw [this]

/-- C78. With the factor `virialF_b200` the size of a halo is measured against 200 times the mean density of matter, in comoving terms the same for all snapshots;
`virialF_c200` is 200. -/
theorem C78_virial_factors (h0 pi g : Q) (hh : 0 < h0) (hpi : 0 < pi) (hg : 0 < g) (m r : Q) (hr : 0 < r) :
    (m > rhoVirial (virialFactors (setCosmology sqrt id h0 e)).2.1 (setCosmology sqrt id h0 e).hz g (setCosmology sqrt id h0 e).scale * r * r * r ↔
      200 * matterDensity pi g h0 e < sphereDensity pi e m r) ∧
    rhoVirial (virialFactors (setCosmology sqrt id h0 e)).2.1 (setCosmology sqrt id h0 e).hz g (setCosmology sqrt id h0 e).scale =
      100 * e.omegaM * h0 ^ 2 / g ∧
    (virialFactors (setCosmology sqrt id h0 e)).2.2 = 200 := by
  obtain ⟨h1, h2⟩ := hubbleRatio_facts hq he
  have ha := he.1.ne'
  have hr1 := h1.ne'
  refine ⟨?_, ?_, rfl⟩
  · rw [C78_overdensity hq he _ h0 pi g hpi hg m r hr, ← (C78_friedmann hq he h0 hh.le pi g).2]
    show 200 * (setCosmology sqrt id h0 e).omegaZ * _ < _ ↔ _
    rw [mul_assoc]
  · show 200 * (e.omegaM / (e.scale * e.scale * e.scale) / hubbleRatio sqrt e / hubbleRatio sqrt e) * (hubbleRatio sqrt e * h0) * (hubbleRatio sqrt e * h0) / 2 / g *
      e.scale * e.scale * e.scale = _
    field_simp
    ring

end

/-! ## The header -/

section
variable [Field Q] [LinearOrder Q] [IsStrictOrderedRing Q] [FloorRing Q]

/-- The first file of a snapshot has a header with the values `e`. -/
inductive HeaderSays (rd : Readers D S Q) (f : InputFiles Q) : Epoch Q → Prop
  | gadget (fmt : rd.snapshotFormat = "gadget") (fe : Bool) (f0 : RawFile) (rest : List Byte) (more : List (List Byte)) (sized : f0.header.WellSized)
      (counts : ∀ t, (f0.parts t).length < 2 ^ 31) (nfiles : f0.header.numFiles < 2 ^ 31)
      (bytes : f.gadget = (record fe (headerBytes fe rd.gadget.le f0) ++ rest) :: more) :
      HeaderSays rd f ⟨rd.gadget.real8 f0.header.scaleFactor, rd.gadget.real8 f0.header.omegaM0, rd.gadget.real8 f0.header.omegaLambda0⟩
  | apostle (fmt : rd.snapshotFormat = "apostle") (f0 : HydroFile Q) (more : List (HydroFile Q)) (first : f.hydro = f0 :: more) :
      HeaderSays rd f ⟨f0.header.time, f0.header.omega0, f0.header.omegaLambda⟩

/-- C78. Snapshot files from which particles can be read have one header that counts. -/
theorem C78_one_header {rd : Readers D S Q} {f : InputFiles Q} {ps : List (Particle D)} (h : SnapshotSays rd f ps) : ∃ e, HeaderSays rd f e := by
  cases h with
  | gadget fmt fe s isz hs hb hi f0 rfs hn T hT hall hne hbox bytes =>
    have h0 := (hall f0 List.mem_cons_self).1
    rw [List.map_cons, HBT.GS.gadgetBytes_eq] at bytes
    exact ⟨_, .gadget fmt fe f0 _ _ h0.header (HBT.GS.small_parts hs h0) (by rw [h0.numFiles]; exact hn) bytes⟩
  | apostle fmt isz width R ps holds =>
    obtain ⟨h0, hs, e, _⟩ := holds.facts
    exact ⟨_, .apostle fmt h0 hs e⟩

theorem loadGadget_epoch {env : GadgetEnv Q} {P : Nat} {files : List (List Byte)} {out : Fin P → (Q × Q × Q) × List (SnapParticle Q)}
    (h : loadGadget env P files = .ok out) {fe : Bool} {f0 : RawFile} {rest : List Byte} {more : List (List Byte)} (sized : f0.header.WellSized)
    (counts : ∀ t, (f0.parts t).length < 2 ^ 31) (nfiles : f0.header.numFiles < 2 ^ 31) (bytes : files = (record fe (headerBytes fe env.le f0) ++ rest) :: more)
    (r : Fin P) : (out r).1 = (env.real8 f0.header.scaleFactor, env.real8 f0.header.omegaM0, env.real8 f0.header.omegaLambda0) := by
  unfold loadGadget at h
  obtain ⟨info, h1, h⟩ := bind_eq_ok h
  have h := Spmd.allRanks_inv h r
  obtain ⟨t, _, h⟩ := bind_eq_ok h
  obtain ⟨ps, _, h⟩ := bind_eq_ok h
  rw [← Outcome.ok.inj h]
  obtain ⟨g, hg, _⟩ := HBT.GS.readGadgetHeader_ok env fe f0 sized counts nfiles _ rest rfl
  unfold loadGadgetHeader at h1
  rw [bytes] at h1
  have : openGadget ((record fe (headerBytes fe env.le f0) ++ rest) :: more) 0 = .ok (record fe (headerBytes fe env.le f0) ++ rest) := rfl
  rw [this, Outcome.bind_ok, hg, Outcome.bind_ok] at h1
  simp only at h1
  split_ifs at h1
  obtain ⟨np, _, h1⟩ := bind_eq_ok h1
  obtain ⟨b1, _, h1⟩ := bind_eq_ok h1
  split_ifs at h1
  obtain ⟨b2, _, h1⟩ := bind_eq_ok h1
  split_ifs at h1
  obtain ⟨b3, _, h1⟩ := bind_eq_ok h1
  obtain ⟨b4, _, h1⟩ := bind_eq_ok h1
  cases h1
  rfl

theorem loadHydro_epoch {env : HydroEnv Q} {P : Nat} {hosts : Bool} {blank : HostedParticle Q} {f0 : HydroFile Q} {more : List (HydroFile Q)}
    {out : Fin P → (Q × Q × Q) × List (HostedParticle Q)} (h : loadHydro env P hosts blank (f0 :: more) = .ok out) (r : Fin P) :
    (out r).1 = (f0.header.time, f0.header.omega0, f0.header.omegaLambda) := by
  unfold loadHydro at h
  obtain ⟨hd, h1, h⟩ := bind_eq_ok h
  obtain ⟨table, _, h⟩ := bind_eq_ok h
  have h := Spmd.allRanks_inv h r
  obtain ⟨t, _, h⟩ := bind_eq_ok h
  obtain ⟨ps, _, h⟩ := bind_eq_ok h
  rw [← Outcome.ok.inj h]
  unfold readHydroHeader at h1
  have : openHydro (f0 :: more) 0 = .ok f0 := rfl
  rw [this, Outcome.bind_ok] at h1
  split_ifs at h1
  cases h1
  rfl

/-- C78. Whenever the particles of a snapshot can be read, every process has the cosmology of the header of the first file, with either format, any number of processes and
either byte order. -/
theorem C78_header {rd : Readers D S Q} {f : InputFiles Q} {e : Epoch Q} (h : HeaderSays rd f e) {P : Nat} {parts : Fin P → List (Particle D)}
    (hp : readParts P rd f = .ok parts) (fl : Q → Q) (h0 : Q) :
    readCosmology P rd fl h0 f = .ok (fun _ => some (setCosmology rd.gadget.sqrt fl h0 e)) := by
  cases h with
  | gadget fmt fe f0 rest more sized counts nfiles bytes =>
    rw [readParts, if_pos fmt] at hp
    obtain ⟨out, h1, _⟩ := bind_eq_ok hp
    rw [readCosmology, if_pos fmt, h1, Outcome.bind_ok]
    congr 1
    funext r
    rw [loadGadget_epoch h1 sized counts nfiles bytes r]
  | apostle fmt f0 more first =>
    have hn : rd.snapshotFormat ≠ "gadget" := by rw [fmt]; decide
    rw [readParts, if_neg hn, if_pos fmt] at hp
    obtain ⟨out, h1, _⟩ := bind_eq_ok hp
    rw [readCosmology, if_neg hn, if_pos fmt, h1, Outcome.bind_ok]
    rw [first] at h1
    congr 1
    funext r
    rw [loadHydro_epoch h1 r]

end

/-! ## Catalogue files -/

section
variable [Field Q]

theorem saveGroups_ok {P : Nat} (c : Cosmology Q) : ∀ (ops : List (WriteOp P)) (disk : CosmoDisk Q), ∃ disk',
    saveGroups (fun _ => some c) ops disk = .ok disk' ∧ (∀ r : Fin P, .sub r ∈ ops → disk' r = some (writeGroup c)) ∧
      (∀ i, (∀ r : Fin P, .sub r ∈ ops → i ≠ r.val) → disk' i = disk i) ∧ (∀ r : Fin P, disk r = some (writeGroup c) → disk' r = some (writeGroup c))
  | [], disk => ⟨disk, rfl, (fun _ h => nomatch h), fun _ _ => rfl, fun _ h => h⟩
  | op :: ops, disk => by
    cases op with
    | sub r =>
      obtain ⟨d, e, h1, h2, h3⟩ := saveGroups_ok c ops (fun i => if i = r.val then some (writeGroup c) else disk i)
      refine ⟨d, by rw [← e]; rfl, fun s hs => ?_, fun i hi => ?_, fun s hs => ?_⟩
      · rcases List.mem_cons.1 hs with h | h
        · cases h
          exact h3 _ (if_pos rfl)
        · exact h1 s h
      · rw [h2 i (fun s hs => hi s (List.mem_cons_of_mem _ hs)), if_neg (hi r List.mem_cons_self)]
      · refine h3 s ?_
        split_ifs
        · rfl
        · exact hs
    | src r =>
      obtain ⟨d, e, h1, h2, h3⟩ := saveGroups_ok c ops disk
      refine ⟨d, by rw [← e]; rfl, fun s hs => ?_, fun i hi => ?_, h3⟩
      · rcases List.mem_cons.1 hs with h | h
        · cases h
        · exact h1 s h
      · exact h2 i (fun s hs => hi s (List.mem_cons_of_mem _ hs))

theorem readCosmoGroups_ok {sqrt fl : Q → Q} {h0 : Q} {disk : CosmoDisk Q} {g : CosmoGroup Q} : ∀ (n i : Nat) (cur : Option (Cosmology Q)),
    (∀ k, i ≤ k → k < i + n → disk k = some g) → readCosmoGroups sqrt fl h0 disk n i cur = .ok (if n = 0 then cur else some (readGroup sqrt fl h0 g))
  | 0, _, _, _ => rfl
  | n + 1, i, cur, h => by
    rw [readCosmoGroups, h i (le_refl _) (by omega)]
    simp only
    rw [readCosmoGroups_ok n (i + 1) _ (fun k h1 h2 => h k (by omega) (by omega))]
    simp

theorem adjacent_le {seg : Nat → Nat × Nat} {k n : Nat} (h : Adjacent seg k n) {r : Nat} (hr : r < k) : (seg r).2 ≤ n := by
  obtain ⟨hle, _, hnext, hend, _⟩ := h
  have mono : ∀ m, r + m < k → (seg r).2 ≤ (seg (r + m)).2 := by
    intro m
    induction m with
    | zero => intro _; exact Nat.le_refl _
    | succ m ih =>
      intro hm
      have a := ih (by omega)
      have b := hnext (r + m) (by omega)
      have d := hle (r + m + 1) (by omega)
      rw [← Nat.add_assoc]
      omega
  have := mono (k - 1 - r) (by omega)
  rw [show r + (k - 1 - r) = k - 1 by omega, hend (by omega)] at this
  exact this

theorem loadCosmology_ok {P' nfiles : Nat} (hP' : 0 < P') (sqrt fl : Q → Q) (h0 : Q) {disk : CosmoDisk Q} {g : CosmoGroup Q}
    (hd : ∀ k, k < nfiles → disk k = some g) (cur : Fin P' → Option (Cosmology Q)) :
    loadCosmology P' sqrt fl h0 nfiles disk cur = .ok (fun r => if r.val < nfiles then some (readGroup sqrt fl h0 g) else cur r) := by
  obtain ⟨seg, hseg, hadj, _, hfair⟩ := C02_fair_split P' nfiles hP'
  unfold loadCosmology
  refine allRanks_ok _ _ (fun r => ?_)
  rw [hseg r r.isLt, Outcome.bind_ok]
  have h2 := hfair r r.isLt
  have h3 := hadj.1 r r.isLt
  have h4 := adjacent_le hadj r.isLt
  rw [readCosmoGroups_ok _ _ _ (fun k _ k2 => hd k (by omega))]
  congr 1
  have hdm := Nat.div_add_mod nfiles P'
  by_cases hr : r.val < nfiles
  · rw [if_pos hr, if_neg]
    rw [h2]
    rcases Nat.lt_or_ge nfiles P' with hlt | hge
    · rw [Nat.mod_eq_of_lt hlt, if_pos hr]
      exact Nat.succ_ne_zero _
    · have := Nat.div_pos hge hP'
      omega
  · rw [if_neg hr, if_pos]
    have hlt : nfiles < P' := by have := r.isLt; omega
    rw [h2, Nat.mod_eq_of_lt hlt, if_neg hr, Nat.div_eq_of_lt hlt]

theorem readCosmoGroups_some {sqrt fl : Q → Q} {h0 : Q} {disk : CosmoDisk Q} : ∀ (n i : Nat) (cur : Option (Cosmology Q)),
    (∀ k, i ≤ k → k < i + n → (disk k).isSome) → ∃ c, readCosmoGroups sqrt fl h0 disk n i cur = .ok c
  | 0, _, cur, _ => ⟨cur, rfl⟩
  | n + 1, i, cur, h => by
    obtain ⟨g, hg⟩ := Option.isSome_iff_exists.1 (h i (le_refl _) (by omega))
    rw [readCosmoGroups, hg]
    exact readCosmoGroups_some n (i + 1) _ (fun k h1 h2 => h k (by omega) (by omega))

theorem loadCosmology_some {P' nfiles : Nat} (hP' : 0 < P') (sqrt fl : Q → Q) (h0 : Q) {disk : CosmoDisk Q} (hd : ∀ k, k < nfiles → (disk k).isSome)
    (cur : Fin P' → Option (Cosmology Q)) : ∃ out, loadCosmology P' sqrt fl h0 nfiles disk cur = .ok out := by
  obtain ⟨seg, hseg, hadj, _, _⟩ := C02_fair_split P' nfiles hP'
  have : ∀ r : Fin P', ∃ c, readCosmoGroups sqrt fl h0 disk ((seg r).2 - (seg r).1) (seg r).1 (cur r) = .ok c := by
    intro r
    have h3 := hadj.1 r r.isLt
    have h4 := adjacent_le hadj r.isLt
    exact readCosmoGroups_some _ _ _ (fun k _ k2 => hd k (by omega))
  choose out hout using this
  refine ⟨out, ?_⟩
  unfold loadCosmology
  refine allRanks_ok _ _ (fun r => ?_)
  rw [hseg r r.isLt, Outcome.bind_ok]
  exact hout r

/-- C78. A snapshot saved by `P` processes with the cosmology of a header `e`, in any order of the files, is loaded by any number of processes: each that reads a file has the
matter density, cosmological constant and scale factor as they were used, and, if these were not rounded when they were stored, the same cosmology. A process for which
there is no file (they outnumber the files) keeps what it had. -/
theorem C78_reload {P P' : Nat} (hP' : 0 < P') (sqrt fl : Q → Q) (hfl : ∀ x, fl (fl x) = fl x) (h0 : Q) (e : Epoch Q) (ops : List (WriteOp P))
    (hops : ∀ r, .sub r ∈ ops) (disk : CosmoDisk Q) (cur : Fin P' → Option (Cosmology Q)) :
    ∃ disk' out, saveGroups (fun _ => some (setCosmology sqrt fl h0 e)) ops disk = .ok disk' ∧ loadCosmology P' sqrt fl h0 P disk' cur = .ok out ∧
      (∀ r : Fin P', P ≤ r.val → out r = cur r) ∧
      (∀ r : Fin P', r.val < P → ∃ c, out r = some c ∧ c.omegaM0 = (setCosmology sqrt fl h0 e).omegaM0 ∧
        c.omegaLambda0 = (setCosmology sqrt fl h0 e).omegaLambda0 ∧ c.scale = (setCosmology sqrt fl h0 e).scale ∧
        (fl e.scale = e.scale → fl e.omegaM = e.omegaM → fl e.omegaLambda = e.omegaLambda → c = setCosmology sqrt fl h0 e)) := by
  obtain ⟨disk', h1, h2, _, _⟩ := saveGroups_ok (setCosmology sqrt fl h0 e) ops disk
  refine ⟨disk', _, h1, loadCosmology_ok hP' sqrt fl h0 (g := writeGroup (setCosmology sqrt fl h0 e)) (fun k hk => h2 ⟨k, hk⟩ (hops _)) cur, ?_, ?_⟩
  · intro r hr
    exact if_neg (by omega)
  · intro r hr
    refine ⟨_, if_pos hr, hfl _, hfl _, hfl _, fun a1 a2 a3 => ?_⟩
    show setCosmology sqrt fl h0 ⟨fl e.scale, fl e.omegaM, fl e.omegaLambda⟩ = _
    rw [a1, a2, a3]

end

/-! ## The run -/

section
variable [LinearOrder K] [MassSum K] [Mul K] [LinearOrder R] [LinearOrder E] [Zero E] [Field Q] [LinearOrder Q] [IsStrictOrderedRing Q] [FloorRing Q] {P : Nat}

/-- The loop with the cosmology is the loop in which each snapshot uses the cosmology of its own header. -/
theorem cosmoLoop_eq {b : Build K D S} {rd : Readers D S Q} {fl : Q → Q} {h0 : Q} {c : HBT.Params ℚ} {files : Int → InputFiles Q}
    {input : Int → (Fin P → Option (Cosmology Q)) → SnapInput K D E S R P × List (WriteOp P)} {own : Int → Cosmology Q} {before g : Int → CosmoDisk Q}
    (hg : ∀ j, saveGroups (fun _ => some (own j)) (input j (fun _ => some (own j))).2 (before j) = .ok (g j)) :
    ∀ (n : Nat) (i : Int) (cur : Fin P → Option (Cosmology Q)) (st : Fin P → List (Sub K D)) (disks : Int → Disk K D) (groups : Int → CosmoDisk Q),
      (∀ j, i ≤ j → groups j = before j) →
      (∀ j, i ≤ j → j < i + n → readCosmology P rd fl h0 (files j) = .ok (fun _ => some (own j))) →
      cosmoLoop b rd fl h0 c files input n i cur st disks groups = do
          let y ← fileLoop b rd c files (fun j => input j (fun _ => some (own j))) n i st disks
          .ok (y.1, y.2, fun j => if i ≤ j ∧ j < i + n then g j else groups j)
  | 0, i, cur, st, disks, groups, _, _ => by
    rw [cosmoLoop, fileLoop, Outcome.bind_ok]
    congr 3
    funext j
    rw [if_neg (by push_cast; omega)]
  | n + 1, i, cur, st, disks, groups, hb, h => by
    have head : cosmoLoop b rd fl h0 c files input (n + 1) i cur st disks groups = (do
        let _ ← setSnapshotIndex c i
        let y ← fileSnapshot b rd files (inputAt (fun j => input j (fun _ => some (own j))) i).1 (inputAt (fun j => input j (fun _ => some (own j))) i).2 st disks
        let g ← saveGroups (fun _ => some (own i)) (input i (fun _ => some (own i))).2 (groups i)
        if i = (2 : Int) ^ 31 - 1 then .ub
        else cosmoLoop b rd fl h0 c files input n (i + 1) (fun _ => some (own i)) y.1 y.2 (fun j => if j = i then g else groups j)) := by
      rw [cosmoLoop, h i (le_refl _) (by push_cast; omega)]
      rfl
    rw [head, hb i (le_refl _), hg i, fileLoop]
    cases setSnapshotIndex c i with
    | ok x =>
      rw [Outcome.bind_ok, Outcome.bind_ok]
      cases fileSnapshot b rd files (inputAt (fun j => input j (fun _ => some (own j))) i).1 (inputAt (fun j => input j (fun _ => some (own j))) i).2 st disks with
      | ok y =>
        rw [Outcome.bind_ok, Outcome.bind_ok, Outcome.bind_ok]
        split_ifs
        · rfl
        · rw [cosmoLoop_eq hg n (i + 1) _ _ _ _ (fun j hj => by rw [if_neg (by omega)]; exact hb j (by omega)) (fun j h1 h2 => h j (by omega) (by push_cast; omega))]
          congr 1
          funext y
          congr 3
          funext j
          by_cases hj : j = i
          · subst hj
            rw [if_neg (by omega), if_pos rfl, if_pos (by push_cast; omega)]
          · rw [if_neg hj]
            by_cases h2 : i + 1 ≤ j ∧ j < i + 1 + n
            · rw [if_pos h2, if_pos (by push_cast; omega)]
            · rw [if_neg h2, if_neg (by push_cast; omega)]
      | ub => rfl
      | abort => rfl
      | diverge => rfl
    | ub => rfl
    | abort => rfl
    | diverge => rfl

variable [NeZero P] {wide : Nat} {readReal : List Char → ℚ → ℚ} {printReal : ℚ → List Char} {version : List Char} {env : Surroundings} {c0 : Fin P → HBT.Params ℚ}
  {real : ℚ → K} {realQ : ℚ → Q} {fixed : Build K D S} {rd : Readers D S Q} {files : Int → InputFiles Q} {name : List Char} {c : HBT.Params ℚ}
  {parts : Int → List (Particle D)} {groups : Int → List (Int × List Int)}
  {input : Int → (Fin P → Option (Cosmology Q)) → SnapInput K D E S R P × List (WriteOp P)}

/-- The cosmology of the snapshots of a simulation with the headers `epochs`. -/
def ownCosmology (rd : Readers D S Q) (realQ : ℚ → Q) (c : HBT.Params ℚ) (fl : Q → Q) (epochs : Int → Epoch Q) (i : Int) : Cosmology Q :=
  setCosmology rd.gadget.sqrt fl (realQ c.constH0) (epochs i)

/-- C78. `HBT name s e` on the files of a simulation, started at the first snapshot or after one whose catalogue is there, makes the catalogues of a program in which every process takes
the energies of each snapshot with the cosmology in the header of that snapshot, whatever was loaded before; and every file of a catalogue says the cosmology of
the header. Catalogues of other snapshots stay as they were. -/
theorem C78_range (fl : Q → Q) (epochs : Int → Epoch Q)
    (h : FileSetting wide readReal env c0 real realQ fixed rd files (fun i => input i (fun _ => some (ownCosmology rd realQ c fl epochs i))) name c parts groups)
    (hE : ∀ i, c.minSnapshotIndex ≤ i → i ≤ c.maxSnapshotIndex → HeaderSays (readersOf realQ rd c) (files i) (epochs i)) {disks : Int → Disk K D} {m : Nat}
    (hr : FileReach (R := R) (E := E) (buildOf real fixed c) (readersOf realQ rd c) files c.maxSnapshotIndex parts groups disks m) {s e : Int}
    (hs : c.minSnapshotIndex ≤ s) (hs' : s ≤ c.minSnapshotIndex + m) (hse : s ≤ e) (he : e ≤ c.maxSnapshotIndex) (rs : InRange 32 s) (re : InRange 32 e)
    (cosmo : Int → CosmoDisk Q) (hc : s = c.minSnapshotIndex ∨ ∃ f, (disks (s - 1)).sub 0 = some f ∧ ∀ k < f.numberOfFiles, (cosmo (s - 1) k).isSome) :
    ∃ disks' cosmo', cosmoProgram wide readReal printReal version env c0 real realQ fixed rd fl files input [name, decimal s, decimal e] disks cosmo =
        .ok (disks', dumpParameters printReal version c, cosmo') ∧
      programOnFiles wide readReal printReal version env c0 real realQ fixed rd files (fun i => input i (fun _ => some (ownCosmology rd realQ c fl epochs i)))
        [name, decimal s, decimal e] disks = .ok (disks', dumpParameters printReal version c) ∧
      (∀ i, s ≤ i → i ≤ e → ∀ r < P, cosmo' i r = some ⟨fl (epochs i).omegaM, fl (epochs i).omegaLambda, (ownCosmology rd realQ c fl epochs i).hz, fl (epochs i).scale⟩) ∧
      (∀ i, (i < s ∨ e < i) → cosmo' i = cosmo i) := by
  obtain ⟨disks', _, e1, _, _⟩ := C72_range (printReal := printReal) (version := version) h hr hs hs' hse he rs re
  have e2 := e1
  rw [h.program_eq (h.two (atoi_decimal rs) (atoi_decimal re) [])] at e2
  obtain ⟨st, hst, e2⟩ := bind_eq_ok e2
  obtain ⟨y, hy, e2⟩ := bind_eq_ok e2
  have hd : y.2 = disks' := congrArg Prod.fst (Outcome.ok.inj e2)
  have hP : 0 < P := h.procs.pos
  have hown : ∀ j, s ≤ j → j < s + ((e + 1 - s).toNat : Int) → readCosmology P (readersOf realQ rd c) fl (realQ c.constH0) (files j) =
      .ok (fun _ => some (ownCosmology rd realQ c fl epochs j)) := by
    intro j j1 j2
    obtain ⟨out, ho, _⟩ := readParts_ok (h.files_.parts_ j (show c.minSnapshotIndex ≤ j by omega) (by omega)) h.readers.blank hP
    exact C78_header (hE j (by omega) (by omega)) ho fl _
  choose g hg1 hg2 _ _ using fun j => saveGroups_ok (ownCosmology rd realQ c fl epochs j) (input j (fun _ => some (ownCosmology rd realQ c fl epochs j))).2 (cosmo j)
  have hcur : ∃ cur, cosmologyBefore P (readersOf realQ rd c).gadget.sqrt fl (realQ c.constH0) c s disks cosmo = .ok cur := by
    unfold cosmologyBefore
    split_ifs with h1
    · exact ⟨_, rfl⟩
    · rcases hc with hc | ⟨f, hf, hc⟩
      · exact absurd hc (by omega)
      · rw [hf]
        exact loadCosmology_some hP _ _ _ hc _
  obtain ⟨cur, hcur⟩ := hcur
  refine ⟨disks', fun j => if s ≤ j ∧ j < s + ((e + 1 - s).toNat : Int) then g j else cosmo j, ?_, e1, fun i i1 i2 r hrP => ?_, fun i hi => ?_⟩
  · rw [cosmoProgram, h.two (atoi_decimal rs) (atoi_decimal re) [], Outcome.bind_ok]
    simp only
    rw [C52_broadcast (root := (0 : Fin P)) (st := fun r => if r = 0 then c else c0 r)
      (by show Sendable (if (0 : Fin P) = 0 then c else c0 0); rw [if_pos rfl]; exact h.send), Outcome.bind_ok]
    simp only [if_true]
    rw [hst, Outcome.bind_ok, hcur, Outcome.bind_ok, cosmoLoop_eq hg1 _ _ _ _ _ _ (fun _ _ => rfl) hown, hy, Outcome.bind_ok, Outcome.bind_ok, hd]
  · show (if s ≤ i ∧ i < s + ((e + 1 - s).toNat : Int) then g i else cosmo i) r = _
    rw [if_pos (by omega)]
    exact hg2 i ⟨r, hrP⟩ ((h.ops i) ⟨r, hrP⟩).1
  · exact if_neg (by omega)

/-- C78. The same for a whole run, `HBT name`, in a directory that may hold anything. -/
theorem C78_whole_run (fl : Q → Q) (epochs : Int → Epoch Q)
    (h : FileSetting wide readReal env c0 real realQ fixed rd files (fun i => input i (fun _ => some (ownCosmology rd realQ c fl epochs i))) name c parts groups)
    (hE : ∀ i, c.minSnapshotIndex ≤ i → i ≤ c.maxSnapshotIndex → HeaderSays (readersOf realQ rd c) (files i) (epochs i))
    (h0 : c.minSnapshotIndex ≤ c.maxSnapshotIndex) (disks : Int → Disk K D) (cosmo : Int → CosmoDisk Q) :
    ∃ disks' cosmo', cosmoProgram wide readReal printReal version env c0 real realQ fixed rd fl files input [name] disks cosmo =
        .ok (disks', dumpParameters printReal version c, cosmo') ∧
      programOnFiles wide readReal printReal version env c0 real realQ fixed rd files (fun i => input i (fun _ => some (ownCosmology rd realQ c fl epochs i)))
        [name] disks = .ok (disks', dumpParameters printReal version c) ∧
      ∀ i, c.minSnapshotIndex ≤ i → i ≤ c.maxSnapshotIndex → ∀ r < P,
        cosmo' i r = some ⟨fl (epochs i).omegaM, fl (epochs i).omegaLambda, (ownCosmology rd realQ c fl epochs i).hz, fl (epochs i).scale⟩ := by
  have hmin : 0 ≤ c.minSnapshotIndex := h.build.minIndex
  have hlast := h.last
  have r1 : InRange 32 c.minSnapshotIndex := ⟨by norm_num; omega, by norm_num at hlast ⊢; omega⟩
  have r2 : InRange 32 c.maxSnapshotIndex := ⟨by norm_num; omega, by norm_num at hlast ⊢; omega⟩
  obtain ⟨disks', cosmo', e1, e2, e3, _⟩ := C78_range (printReal := printReal) (version := version) fl epochs h hE (.start disks) (le_refl _) (by simp) h0 (le_refl _) r1 r2
    cosmo (Or.inl rfl)
  have hargs : parseHBTParams wide readReal env (c0 0) [name] = parseHBTParams wide readReal env (c0 0) [name, decimal c.minSnapshotIndex, decimal c.maxSnapshotIndex] := by
    rw [h.two (atoi_decimal r1) (atoi_decimal r2) []]
    obtain ⟨lines, l1, l2⟩ := h.parsed
    rw [parseHBTParams]
    rw [l1]
    simp only
    rw [l2, Outcome.bind_ok]
  refine ⟨disks', cosmo', ?_, ?_, e3⟩
  · rw [← e1, cosmoProgram, cosmoProgram, hargs]
  · rw [← e2, programOnFiles, programOnFiles, hargs]

end

/-! ## Examples -/

/-- A flat universe with 3 parts of matter in 10, at half its present size. -/
example : SquareRoot Real.sqrt ∧ (⟨1 / 2, 3 / 10, 7 / 10⟩ : Epoch ℝ).Expanding := by
  refine ⟨fun x hx => ⟨Real.sqrt_nonneg x, Real.sq_sqrt hx⟩, ?_, ?_⟩ <;> norm_num [Epoch.expansion]

/-- Without cosmological constant the same universe had the sixteen-fold density at a quarter of its size, and the eight-fold Hubble rate. -/
example : (setCosmology Real.sqrt id 100 (⟨1 / 4, 1, 0⟩ : Epoch ℝ)).hz = 800 ∧ (setCosmology Real.sqrt id 100 (⟨1 / 4, 1, 0⟩ : Epoch ℝ)).omegaZ = 1 := by
  have h : hubbleRatio Real.sqrt (⟨1 / 4, 1, 0⟩ : Epoch ℝ) = 8 := by
    unfold hubbleRatio
    rw [show (1 : ℝ) / (1 / 4 * (1 / 4) * (1 / 4)) + (1 - 1 - 0) / (1 / 4 * (1 / 4)) + 0 = 8 ^ 2 by norm_num]
    exact Real.sqrt_sq (by norm_num)
  unfold setCosmology
  rw [h]
  norm_num

/-- `C78_reload`: three processes save, two load; nothing is rounded. -/
example (disk : CosmoDisk ℝ) (e : Epoch ℝ) : ∃ disk' out, saveGroups (P := 3) (fun _ => some (setCosmology Real.sqrt id 100 e)) [.sub 2, .src 0, .sub 0, .sub 1] disk = .ok disk' ∧
    loadCosmology 2 Real.sqrt id 100 3 disk' (fun _ => none) = .ok out ∧ ∀ r, out r = some (setCosmology Real.sqrt id 100 e) := by
  obtain ⟨d, out, h1, h2, _, h3⟩ := C78_reload (P := 3) (P' := 2) (by decide) Real.sqrt id (fun _ => rfl) 100 e [.sub 2, .src 0, .sub 0, .sub 1] (by decide) disk (fun _ => none)
  refine ⟨d, out, h1, h2, fun r => ?_⟩
  obtain ⟨c, c1, _, _, _, c2⟩ := h3 r (by omega)
  rw [c1, c2 rfl rfl rfl]

/-- The condition on rounding in `C78_reload` is needed: if the scale factor is rounded when it is stored, then the Hubble rate after loading is not the one that was used (and
saved). Here numbers are rounded up to integers. -/
theorem C78_rounded_reload : ∃ (fl : ℝ → ℝ) (e : Epoch ℝ), (∀ x, fl (fl x) = fl x) ∧
    (readGroup Real.sqrt fl 1 (writeGroup (setCosmology Real.sqrt fl 1 e))).hz ≠ (writeGroup (setCosmology Real.sqrt fl 1 e)).hubbleParam := by
  refine ⟨fun x => (⌈x⌉ : ℝ), ⟨1 / 4, 1, 0⟩, fun x => by simp, ?_⟩
  have h : hubbleRatio Real.sqrt (⟨1 / 4, 1, 0⟩ : Epoch ℝ) = 8 := by
    unfold hubbleRatio
    rw [show (1 : ℝ) / (1 / 4 * (1 / 4) * (1 / 4)) + (1 - 1 - 0) / (1 / 4 * (1 / 4)) + 0 = 8 ^ 2 by norm_num]
    exact Real.sqrt_sq (by norm_num)
  have hc : ⌈(1 / 4 : ℝ)⌉ = 1 := by
    rw [Int.ceil_eq_iff]
    norm_num
  have h' : hubbleRatio Real.sqrt (⟨1, 1, 0⟩ : Epoch ℝ) = 1 := by
    unfold hubbleRatio
    norm_num
  have h8 : ⌈(8 * 1 : ℝ)⌉ = 8 := by norm_num
  simp only [readGroup, writeGroup, setCosmology, hc, h]
  simp only [Int.ceil_one, Int.ceil_zero, Int.cast_one, Int.cast_zero, h', h8]
  norm_num

theorem exampleEpochs : ∃ epochs : Int → Epoch ℚ, ∀ i, ProgramFilesExample.c.minSnapshotIndex ≤ i → i ≤ ProgramFilesExample.c.maxSnapshotIndex →
    HeaderSays (readersOf id (InputExample.readers "" "") ProgramFilesExample.c) (InputExample.gadgetInput i) (epochs i) := by
  have hE : ∀ i : Int, ∃ e : Epoch ℚ, ProgramFilesExample.c.minSnapshotIndex ≤ i → i ≤ ProgramFilesExample.c.maxSnapshotIndex →
      HeaderSays (readersOf id (InputExample.readers "" "") ProgramFilesExample.c) (InputExample.gadgetInput i) e := by
    intro i
    by_cases h : ProgramFilesExample.c.minSnapshotIndex ≤ i ∧ i ≤ ProgramFilesExample.c.maxSnapshotIndex
    · obtain ⟨e, he⟩ := C78_one_header (ProgramFilesExample.setting.files_.parts_ i h.1 h.2)
      exact ⟨e, fun _ _ => he⟩
    · exact ⟨⟨0, 0, 0⟩, fun h1 h2 => absurd ⟨h1, h2⟩ h⟩
  choose epochs hE using hE
  exact ⟨epochs, hE⟩

/-- `C78_whole_run` for the files of `ProgramFilesExample`. -/
example (disks : Int → Disk ℚ Nat) (cosmo : Int → CosmoDisk ℚ) : ∃ epochs : Int → Epoch ℚ, ∃ disks' cosmo',
    cosmoProgram 32 readWhole printWhole [] ProgramFilesExample.around (fun _ : Fin 2 => defaults true blankParams) id id (InputExample.build "gadget2_int")
      (InputExample.readers "" "") id InputExample.gadgetInput (fun i _ => ProgramFilesExample.input i) [ProgramFilesExample.name] disks cosmo =
      .ok (disks', dumpParameters printWhole [] ProgramFilesExample.c, cosmo') ∧
    ∀ r < 2, ∃ g, cosmo' 1 r = some g ∧ g.scaleFactor = (epochs 1).scale := by
  have hmin := ProgramFilesExample.c_checks.2.2.2.1
  have hmax := ProgramFilesExample.c_checks.2.2.2.2
  obtain ⟨epochs, hE⟩ := exampleEpochs
  obtain ⟨disks', cosmo', h1, _, h2⟩ := C78_whole_run (printReal := printWhole) (version := []) (input := fun i _ => ProgramFilesExample.input i) id epochs
    ProgramFilesExample.setting hE (by rw [hmin, hmax]; decide) disks cosmo
  exact ⟨epochs, disks', cosmo', h1, fun r hr => ⟨_, h2 1 (by rw [hmin]; decide) (by rw [hmax]) r hr, rfl⟩⟩

end HBT.Props
