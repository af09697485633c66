import Verif.Lemmas.Origin
import Verif.Model.Main
import Verif.Spec.Main
import Verif.Props.Run
import Verif.Props.Exchange
import Verif.Props.Partition
import Verif.Props.HaloExchange
import Verif.Props.Hosts
import Verif.Props.Kick
import Verif.Props.Centrals
import Verif.Props.Member
import Verif.Props.Catalogue
/-!
# Lemmas about the main loop
-/
set_option linter.unusedSectionVars false
namespace HBT.MainLoop
open HBT HBT.Model HBT.Spec HBT.Props
variable {K D E S R : Type}

/-! ## Hypotheses -/

/-- Library functions that do what they should, and sensible parameters. -/
structure BuildOk [LE K] (b : Build K D S) : Prop where
  chunk : 0 < b.chunk
  nestChunk : 0 < b.nestChunk
  ids : SortBySpec Particle.id b.sortIds
  tagged : SortBySpec (fun q : Particle D × Nat => q.1.id) b.sortTagged
  ranks : SortBySpec Prod.fst b.sortRanks
  keys : SortSpec b.sortKeys
  search : BsearchSpec b.bsearch
  mass : SortsByMass b.sortMass
  average : ∀ h, (b.average h).particles = h.particles ∧ b.haloId (b.average h).shell = b.haloId h.shell
  cell : ∀ P, 0 < P → ∀ h, ∃ r : Fin P, b.cell P h = .ok (r.val : Int)
  prec : Stops b.cfg.fl b.cfg.prec
  min : 2 ≤ b.cfg.minNum
  relax : Keeps b.cfg.fl b.cfg.relax
  minIndex : 0 ≤ b.minIndex

/-- The inputs of a snapshot whose particle ids are `ids`: at least as many particles as processes, distinct ids, groups with
distinct ids consisting of particles that can be looked up; schedules that run every iteration once; any gravity solver. -/
structure SnapInputOk [LE E] {P : Nat} (b : Build K D S) (ids : List Int) (w : SnapInput K D E S R P) : Prop where
  procs : 0 < P
  few : P * (b.chunk + 1) < 2 ^ 31
  snap : 0 ≤ w.snap
  ids_ : ((allParticles w.parts).map Particle.id).Perm ids
  distinct : ids.Nodup
  nonneg : ∀ i ∈ ids, 0 ≤ i
  enough : P ≤ ids.length
  haloIds : (((List.ofFn w.halos).flatten).map (fun h => b.haloId h.shell)).Nodup
  noNull : ∀ r, ∀ h ∈ w.halos r, b.haloId h.shell ≠ -1
  members : ∀ r, ∀ h ∈ w.halos r, ∀ p ∈ h.particles, if b.fullGroups then p.id ∈ ids else Known b.dmOnly ids p.id
  tableOrder : ∀ r l, (w.tableOrder r l).Perm l
  feedOrder : ∀ r l, (w.feedOrder r l).Perm l
  nestOrder : ∀ r l, (w.nestOrder r l).Perm l
  maskOrder : ∀ r l, (w.maskOrder r l).Perm l
  hostOrder : ∀ r l, (w.hostOrder r l).Perm l
  loneOrder : ∀ r l, (w.loneOrder r l).Perm l
  mergeOrder : ∀ r l, (w.mergeOrder r l).Perm l
  eachOrder : ∀ r l, (w.eachOrder r l).Perm l
  env : ∀ r st i, EnvOk (w.env r st i) ∧ (w.env r st i).mass = b.mass
  env' : ∀ r st i, EnvOk (w.env' r st i) ∧ (w.env' r st i).mass = b.mass

/-- The parameters of the tracking part. -/
def params (b : Build K D S) : Params K D :=
  ⟨b.nestChunk, b.sortKeys, b.bsearch, b.sortMass, b.cfg, b.mass, b.merging, !b.dmOnly⟩

theorem params_ok [LinearOrder K] {b : Build K D S} (hb : BuildOk b) : (params b).Ok :=
  ⟨hb.nestChunk, hb.keys, hb.search, hb.mass, hb.prec, hb.min, hb.relax⟩

/-! ## The current record of a particle -/

theorem currentOf_mem {all : List (Particle D)} {p : Particle D} (h : p.id ∈ all.map Particle.id) :
    currentOf all p ∈ all ∧ (currentOf all p).id = p.id := by
  unfold currentOf
  cases hf : all.find? (fun q => q.id == p.id) with
  | none =>
    rw [List.find?_eq_none] at hf
    obtain ⟨q, hq, e⟩ := List.mem_map.1 h
    exact absurd (by simpa using e) (hf q hq)
  | some q =>
    exact ⟨List.mem_of_find?_eq_some hf, by simpa using List.find?_some hf⟩

theorem currentOf_missing {all : List (Particle D)} {p : Particle D} (h : p.id ∉ all.map Particle.id) :
    currentOf all p = ⟨nullId, p.data⟩ := by
  unfold currentOf
  rw [List.find?_eq_none.2]
  intro q hq hc
  exact h (List.mem_map.2 ⟨q, hq, by simpa using hc⟩)

theorem eq_of_id {all : List (Particle D)} (hd : (all.map Particle.id).Nodup) {p q : Particle D} (hp : p ∈ all) (hq : q ∈ all)
    (e : p.id = q.id) : p = q := (List.inj_on_of_nodup_map hd) hp hq e

theorem currentOf_perm {all all' : List (Particle D)} (hp : all.Perm all') (hd : (all.map Particle.id).Nodup) (p : Particle D) :
    currentOf all p = currentOf all' p := by
  by_cases h : p.id ∈ all.map Particle.id
  · obtain ⟨m1, e1⟩ := currentOf_mem h
    obtain ⟨m2, e2⟩ := currentOf_mem ((hp.map Particle.id).mem_iff.1 h)
    exact eq_of_id hd m1 (hp.mem_iff.2 m2) (by rw [e1, e2])
  · rw [currentOf_missing h, currentOf_missing (fun h' => h ((hp.map Particle.id).mem_iff.2 h'))]

/-! ## Loading the particles -/

theorem fillHash_ok (b : Build K D S) (hk : SortSpec b.sortKeys) (order : List (Int × Int) → List (Int × Int)) (ho : ∀ l, (order l).Perm l)
    (ps : List (Particle D)) :
    ∃ s s' : SnapRank D, fillHash b order ps = .ok s ∧ s.particles = ps ∧ s'.particles = ps ∧ TablesFilled s' ∧
      (∀ ids, s.getIndices b.needHash ids = s'.getIndices b.needHash ids) ∧
      (∀ pid, inSnapshot b s pid = inSnapshot b s' pid) ∧
      s'.mapped = MappedTable.fill b.sortKeys (particleKeys ps) nullId ∧
      emptyFlat.fill (particleKeys ps) (order (particleKeys ps)) nullId = .ok s'.flat := by
  obtain ⟨t', e, _⟩ := C09_flat_lookup emptyFlat (particleKeys ps) (order (particleKeys ps)) nullId (ho _)
  unfold fillHash
  by_cases hn : b.needHash = true
  · rw [if_pos hn]
    refine ⟨_, ⟨ps, MappedTable.fill b.sortKeys (particleKeys ps) nullId, t'⟩, rfl, rfl, rfl,
      ⟨⟨_, hk, rfl⟩, ⟨_, _, ho _, e⟩⟩, fun ids => ?_, fun pid => ?_, rfl, e⟩
    · unfold SnapRank.getIndices; rw [if_pos hn, if_pos hn]
    · unfold inSnapshot; rw [if_pos hn, if_pos hn]
  · rw [if_neg hn, e, Outcome.bind_ok]
    refine ⟨_, ⟨ps, MappedTable.fill b.sortKeys (particleKeys ps) nullId, t'⟩, rfl, rfl, rfl,
      ⟨⟨_, hk, rfl⟩, ⟨_, _, ho _, e⟩⟩, fun ids => ?_, fun pid => ?_, rfl, rfl⟩
    · unfold SnapRank.getIndices; rw [if_neg hn, if_neg hn]
    · unfold inSnapshot; rw [if_neg hn, if_neg hn]

theorem exchange_congr {P : Nat} (needHash : Bool) (chunksize : Nat) (fill : Particle D)
    (sort : List (Particle D × Nat) → List (Particle D × Nat)) (ranges : List Int) (snap snap' : Fin P → SnapRank D)
    (h1 : ∀ r, (snap r).particles = (snap' r).particles)
    (h2 : ∀ r ids, (snap r).getIndices needHash ids = (snap' r).getIndices needHash ids) (halos : Fin P → List (List (Particle D))) :
    exchange needHash chunksize fill sort ranges snap halos = exchange needHash chunksize fill sort ranges snap' halos := by
  have : ∀ r roam, queryParticles needHash sort (snap r) roam = queryParticles needHash sort (snap' r) roam := by
    intro r roam
    unfold queryParticles
    rw [h1 r]
    simp only [h2 r]
  unfold exchange
  simp only [this]

theorem mem_allParticles {P : Nat} {parts : Fin P → List (Particle D)} {p : Particle D} :
    p ∈ allParticles parts ↔ ∃ r, p ∈ parts r := by
  unfold allParticles
  rw [List.mem_flatten]
  constructor
  · rintro ⟨l, hl, hs⟩
    obtain ⟨r, rfl⟩ := (List.mem_ofFn' _ _).1 hl
    exact ⟨r, hs⟩
  · rintro ⟨r, hs⟩
    exact ⟨_, (List.mem_ofFn' _ _).2 ⟨r, rfl⟩, hs⟩

/-- What the loaded particle snapshot is good for. -/
structure Loaded [LE E] {P : Nat} (b : Build K D S) (ids : List Int) (w : SnapInput K D E S R P) (snap : Fin P → SnapRank D)
    (ranges : List Int) : Prop where
  query : ∀ halos : Fin P → List (List (Particle D)), (∀ r, ∀ h ∈ halos r, ∀ p ∈ h, Known b.dmOnly ids p.id) →
    exchange b.needHash b.chunk b.fill b.sortTagged ranges snap halos
      = .ok (fun r => (halos r).map (List.map (currentOf (allParticles w.parts))))
  found : ∀ p ∈ allParticles w.parts, ∃ r, inSnapshot b (snap r) p.id = true

theorem getElem?_mono {l : List Int} (h : l.Pairwise (· ≤ ·)) {i j : Nat} {x y : Int} (hij : i ≤ j) (hi : l[i]? = some x)
    (hj : l[j]? = some y) : x ≤ y := by
  rcases Nat.lt_or_ge i j with hlt | hge
  · obtain ⟨a, rfl⟩ := List.getElem?_eq_some_iff.1 hi
    obtain ⟨c, rfl⟩ := List.getElem?_eq_some_iff.1 hj
    exact (List.pairwise_iff_getElem.1 h) i j a c hlt
  · have : i = j := by omega
    subst this
    rw [hi] at hj
    cases hj
    exact le_refl _

theorem placeParticles_ok [LE K] [LE E] {P : Nat} {b : Build K D S} {ids : List Int} {w : SnapInput K D E S R P} (hb : BuildOk b)
    (hw : SnapInputOk b ids w) : ∃ snap ranges, placeParticles b w = .ok (snap, ranges) ∧ Loaded b ids w snap ranges := by
  have hd : ((allParticles w.parts).map Particle.id).Nodup := hw.ids_.nodup_iff.2 hw.distinct
  have hlen : (allParticles w.parts).length = ids.length := by
    rw [← hw.ids_.length_eq, List.length_map]
  obtain ⟨new, ranges, e, hperm, _, hpart, hin, hall, _⟩ := C15_partition hw.procs hb.ids w.parts hd
    (fun q hq => hw.nonneg _ (hw.ids_.mem_iff.1 (List.mem_map_of_mem hq))) (by rw [hlen]; exact hw.enough)
  have hf := fun r => fillHash_ok b hb.keys (w.tableOrder r) (hw.tableOrder r) (new r)
  choose snap snap' e1 p1 p2 tf g1 g2 m1 m2 using hf
  have hps : (fun r => (snap' r).particles) = new := by funext r; exact p2 r
  have hbound : ∀ i ∈ ids, ∃ lo hi, ranges[0]? = some lo ∧ ranges[P]? = some hi ∧ lo ≤ i ∧ i < hi := by
    intro i hi
    obtain ⟨q, hq, rfl⟩ := List.mem_map.1 (hw.ids_.mem_iff.2 hi)
    obtain ⟨r, hr⟩ := hall q hq
    obtain ⟨lo, hi, h1, h2, h3, h4⟩ := (hin r q hq).1 hr
    have hl := hpart.length
    have hrP : r.val + 1 ≤ P := r.2
    refine ⟨ranges[0]'(by omega), ranges[P]'(by omega), by simp [hl], by simp [hl], ?_, ?_⟩
    · exact le_trans (getElem?_mono hpart.ascending (Nat.zero_le _) (by simp [hl]) h1) h3
    · exact lt_of_lt_of_le h4 (getElem?_mono hpart.ascending hrP h2 (by simp [hl]))
  have hknown : ∀ x, Known b.dmOnly ids x → (∀ y, ranges[0]? = some y → y ≤ x) ∧ ∀ y, ranges[P]? = some y → x < y := by
    intro x hx
    have hb1 : ∃ i ∈ ids, i ≤ x := by
      rcases hx with h | ⟨_, h, _⟩
      · exact ⟨x, h, le_refl _⟩
      · exact h
    have hb2 : ∃ i ∈ ids, x ≤ i := by
      rcases hx with h | ⟨_, _, h⟩
      · exact ⟨x, h, le_refl _⟩
      · exact h
    obtain ⟨i, hi, hi1⟩ := hb1
    obtain ⟨j, hj, hj1⟩ := hb2
    obtain ⟨lo, _, a1, _, a3, _⟩ := hbound i hi
    obtain ⟨_, hi', _, c2, _, c4⟩ := hbound j hj
    constructor
    · intro y hy
      rw [a1] at hy; cases hy; omega
    · intro y hy
      rw [c2] at hy; cases hy; omega
  refine ⟨snap, ranges, ?_, ?_, ?_⟩
  · unfold placeParticles
    rw [e, Outcome.bind_ok, allRanks_ok _ _ e1, Outcome.bind_ok]
  · intro halos hk
    rw [exchange_congr b.needHash b.chunk b.fill b.sortTagged ranges snap snap' (fun r => by rw [p1, p2]) g1,
      C17_query b.needHash b.chunk hb.chunk hw.few b.fill hb.tagged ranges snap' (by rw [hps]; exact hpart) tf halos
        (fun r h hh p hp => (hknown _ (hk r h hh p hp)).1) (fun r h hh p hp => (hknown _ (hk r h hh p hp)).2)]
    congr 1
    funext r
    apply List.map_congr_left
    intro h _
    apply List.map_congr_left
    intro p _
    rw [hps]
    exact currentOf_perm hperm (((hperm.map Particle.id).nodup_iff).2 hd) p
  · intro p hp
    obtain ⟨r, hr⟩ := hall p hp
    refine ⟨r, ?_⟩
    rw [g2]
    have h0 : 0 ≤ p.id := hw.nonneg _ (hw.ids_.mem_iff.1 (List.mem_map_of_mem hp))
    obtain ⟨i, hi⟩ := List.getElem?_of_mem hr
    have hkey : (p.id, (i : Int)) ∈ particleKeys (new r) := by
      unfold particleKeys
      refine List.mem_map.2 ⟨(p, i), ?_, rfl⟩
      rw [List.mem_zipIdx_iff_getElem?]
      exact hi
    have hne : ∀ x, LookupAnswer (particleKeys (new r)) nullId p.id x → x ≠ nullId := by
      intro x hx
      rcases hx with h | ⟨h, _⟩
      · unfold particleKeys at h
        obtain ⟨y, _, e⟩ := List.mem_map.1 h
        have := congrArg Prod.snd e
        simp only at this
        unfold nullId
        omega
      · exact absurd hkey (h _)
    unfold inSnapshot
    split
    · rw [m1]
      simpa using hne _ (C08_mapped_lookup hb.keys hb.search (particleKeys (new r)) nullId p.id h0)
    · obtain ⟨t', e', h⟩ := C09_flat_lookup emptyFlat (particleKeys (new r)) (w.tableOrder r (particleKeys (new r))) nullId
        (hw.tableOrder r _)
      rw [m2 r] at e'
      cases e'
      obtain ⟨x, hx, ha⟩ := h p.id
      rw [hx]
      simpa using hne _ ha


/-! ## Updating haloes -/

/-- The particles of a halo or subhalo after the query and `KickNullParticles`. -/
def fresh (dmOnly : Bool) (all ps : List (Particle D)) : List (Particle D) :=
  if dmOnly then ps.map (currentOf all) else survivors (ps.map (currentOf all))

theorem fresh_mem {dmOnly : Bool} {all ps : List (Particle D)} {ids : List Int} (hids : (all.map Particle.id).Perm ids)
    (hk : ∀ p ∈ ps, Known dmOnly ids p.id) : ∀ q ∈ fresh dmOnly all ps, q ∈ all := by
  intro q hq
  unfold fresh at hq
  split at hq
  · rename_i hdm
    obtain ⟨p, hp, rfl⟩ := List.mem_map.1 hq
    rcases hk p hp with h | ⟨h, _⟩
    · exact (currentOf_mem (hids.mem_iff.2 h)).1
    · rw [h] at hdm; cases hdm
  · unfold survivors at hq
    obtain ⟨h1, h2⟩ := List.mem_filter.1 hq
    obtain ⟨p, hp, rfl⟩ := List.mem_map.1 h1
    by_cases h : p.id ∈ all.map Particle.id
    · exact (currentOf_mem h).1
    · rw [currentOf_missing h] at h2
      simp at h2

theorem putHalos_ok (dmOnly : Bool) (all : List (Particle D)) : ∀ hs : List (HaloRec S (Particle D)),
    putHalos dmOnly hs ((hs.map HaloRec.particles).map (List.map (currentOf all)))
      = .ok (hs.map (fun h => ⟨h.shell, fresh dmOnly all h.particles⟩)) := by
  intro hs
  induction hs with
  | nil => rfl
  | cons h hs ih =>
    rw [List.map_cons, List.map_cons, putHalos]
    have : kickInHalo dmOnly (h.particles.map (currentOf all)) = .ok (fresh dmOnly all h.particles) := by
      unfold kickInHalo fresh
      cases dmOnly with
      | true => rfl
      | false =>
        simp only [Bool.false_eq_true, if_false]
        rw [C20_kick_halo, Outcome.bind_ok]
    rw [this, Outcome.bind_ok, ih, Outcome.bind_ok]
    rfl

/-- The groups on the processes are those of the input, each on one process, with the current records of their particles (or as
they were read, if they were read with all data). -/
def Groups {P : Nat} (b : Build K D S) (w : SnapInput K D E S R P) (halos : Fin P → List (HaloRec S (Particle D))) : Prop :=
  ((List.ofFn halos).flatten.map (fun h => (b.haloId h.shell, h.particles))).Perm
    ((List.ofFn w.halos).flatten.map (fun h => (b.haloId h.shell,
      if b.fullGroups then h.particles else fresh b.dmOnly (allParticles w.parts) h.particles)))

theorem updateHalos_ok [LE K] [LE E] {P : Nat} {b : Build K D S} {ids : List Int} {w : SnapInput K D E S R P} (hb : BuildOk b)
    (hw : SnapInputOk b ids w) {snap : Fin P → SnapRank D} {ranges : List Int} (hl : Loaded b ids w snap ranges) :
    ∃ halos, updateHalos b ranges snap w.halos = .ok halos ∧
      (∀ r, ((halos r).map (fun h => b.haloId h.shell)).Nodup) ∧
      (∀ r, ∀ h ∈ halos r, b.haloId h.shell ≠ -1) ∧
      (∀ r, ∀ h ∈ halos r, ∀ p ∈ h.particles, p.id ∈ ids ∧ (p ∈ allParticles w.parts ∨ (b.fullGroups = true ∧ ∃ r', ∃ g ∈ w.halos r', p ∈ g.particles))) ∧
      Groups b w halos := by
  unfold updateHalos
  by_cases hfull : b.fullGroups = true
  · rw [if_pos hfull]
    refine ⟨w.halos, rfl, fun r => ?_, hw.noNull, fun r h hh p hp => ⟨?_, Or.inr ⟨hfull, r, h, hh, hp⟩⟩, ?_⟩
    · have := hw.haloIds
      rw [List.map_flatten, List.nodup_flatten] at this
      exact this.1 _ (List.mem_map.2 ⟨w.halos r, (List.mem_ofFn' _ _).2 ⟨r, rfl⟩, rfl⟩)
    · have := hw.members r h hh p hp
      rwa [if_pos hfull] at this
    · unfold Groups
      rw [hfull]
      exact List.Perm.refl _
  · have hk : ∀ r, ∀ h ∈ w.halos r, ∀ p ∈ h.particles, Known b.dmOnly ids p.id := by
      intro r h hh p hp
      have := hw.members r h hh p hp
      rwa [if_neg hfull] at this
    rw [if_neg hfull, hl.query _ (by
      intro r h hh p hp
      obtain ⟨g, hg, rfl⟩ := List.mem_map.1 hh
      exact hk r g hg p hp), Outcome.bind_ok, allRanks_ok _ _ (fun r => putHalos_ok b.dmOnly (allParticles w.parts) (w.halos r)),
      Outcome.bind_ok]
    obtain ⟨new, e, hp⟩ := C19_haloes_conserved b.chunk hb.chunk hw.few b.fill hb.ranks b.average (b.cell P)
      (fun r => (w.halos r).map (fun h => (⟨h.shell, fresh b.dmOnly (allParticles w.parts) h.particles⟩ : HaloRec S (Particle D))))
      (fun _ => []) (fun r h _ => hb.cell P hw.procs _)
    have hmem : ∀ r, ∀ h ∈ new r, ∃ r0, ∃ g ∈ w.halos r0, b.haloId h.shell = b.haloId g.shell ∧
        h.particles = fresh b.dmOnly (allParticles w.parts) g.particles := by
      intro r h hh
      have h1 := (List.mem_filter.1 ((hp r).mem_iff.1 hh)).1
      obtain ⟨h2, hh2, rfl⟩ := List.mem_map.1 h1
      obtain ⟨l, hl, hl2⟩ := List.mem_flatten.1 hh2
      obtain ⟨r0, rfl⟩ := (List.mem_ofFn' _ _).1 hl
      obtain ⟨g, hg, rfl⟩ := List.mem_map.1 hl2
      exact ⟨r0, g, hg, (hb.average _).2, (hb.average _).1⟩
    refine ⟨new, by rw [e]; rfl, fun r => ?_, fun r h hh => ?_, fun r h hh p hpp => ?_, ?_⟩
    · rw [((hp r).map _).nodup_iff]
      refine List.Nodup.sublist (List.Sublist.map _ List.filter_sublist) ?_
      rw [List.map_map]
      have e1 : ((fun h => b.haloId h.shell) ∘ b.average) = fun h => b.haloId h.shell := by
        funext h; exact (hb.average h).2
      rw [e1, List.map_flatten, List.map_ofFn]
      have e2 : (List.map (fun h => b.haloId h.shell) ∘ fun r => (w.halos r).map
          (fun h => (⟨h.shell, fresh b.dmOnly (allParticles w.parts) h.particles⟩ : HaloRec S (Particle D))))
          = fun r => (w.halos r).map (fun h => b.haloId h.shell) := by
        funext r
        simp [Function.comp_def]
      rw [e2]
      have := hw.haloIds
      rwa [List.map_flatten, List.map_ofFn] at this
    · obtain ⟨r0, g, hg, e1, _⟩ := hmem r h hh
      rw [e1]
      exact hw.noNull r0 g hg
    · obtain ⟨r0, g, hg, _, e2⟩ := hmem r h hh
      rw [e2] at hpp
      have := fresh_mem hw.ids_ (hk r0 g hg) p hpp
      exact ⟨hw.ids_.mem_iff.1 (List.mem_map_of_mem this), Or.inl this⟩
    · have h1 : ((List.ofFn new).flatten).Perm ((List.ofFn (fun r => (w.halos r).map (fun h =>
          (⟨h.shell, fresh b.dmOnly (allParticles w.parts) h.particles⟩ : HaloRec S (Particle D))))).flatten.map b.average) := by
        classical
        refine (flatten_perm _ _ hp).trans ?_
        rw [List.perm_iff_count]
        intro a
        rw [List.count_flatten, List.map_ofFn, List.sum_ofFn]
        obtain ⟨r0, hr0⟩ := hb.cell P hw.procs a
        rw [Finset.sum_eq_single r0]
        · simp only [Function.comp]
          rw [List.count_filter (by simpa using hr0)]
        · intro r _ hne
          simp only [Function.comp]
          rw [List.count_eq_zero]
          intro hm
          have := (List.mem_filter.mp hm).2
          rw [decide_eq_true_iff, hr0] at this
          simp at this
          exact hne (Fin.ext (by omega))
        · intro h; exact absurd (Finset.mem_univ r0) h
      have h2 := h1.map (fun h => (b.haloId h.shell, h.particles))
      unfold Groups
      rw [Bool.not_eq_true] at hfull
      rw [hfull]
      refine h2.trans (List.Perm.of_eq ?_)
      rw [List.map_map, List.map_flatten, List.map_flatten, List.map_ofFn, List.map_ofFn]
      congr 2
      funext r
      simp only [Function.comp, List.map_map]
      refine List.map_congr_left (fun h _ => ?_)
      simp only [Function.comp]
      rw [(hb.average _).1, (hb.average _).2]
      rfl

/-! ## Updating subhaloes -/

/-- A subhalo after `UpdateParticles`. -/
def renew [MassSum K] (b : Build K D S) (all : List (Particle D)) (s : Sub K D) : Sub K D :=
  let n := if b.dmOnly then s.nbound else (survivors ((s.particles.map (currentOf all)).take s.nbound)).length
  { s with nbound := n, particles := fresh b.dmOnly all s.particles, mbound := massOf b.mass n (fresh b.dmOnly all s.particles) }

theorem renew_le [MassSum K] (b : Build K D S) (all : List (Particle D)) (s : Sub K D) (h : s.nbound ≤ s.particles.length) :
    (renew b all s).nbound ≤ (renew b all s).particles.length ∧ (renew b all s).nbound ≤ s.nbound ∧
    (renew b all s).particles.length ≤ s.particles.length ∧
    (b.dmOnly = true → (renew b all s).nbound = s.nbound ∧ (renew b all s).particles.length = s.particles.length) ∧
    (s.nbound = s.particles.length → (renew b all s).nbound = (renew b all s).particles.length) := by
  unfold renew fresh
  cases b.dmOnly with
  | true => simpa using h
  | false =>
    refine ⟨?_, ?_, ?_, fun h => by simp at h, fun h => ?_⟩
    rotate_right
    · simp only [Bool.false_eq_true, if_false]
      rw [List.take_of_length_le (by rw [List.length_map]; omega)]
    all_goals
    simp only [Bool.false_eq_true, if_false]
    have h1 : (survivors ((s.particles.map (currentOf all)).take s.nbound)).length ≤ (survivors (s.particles.map (currentOf all))).length :=
      ((List.take_sublist _ _).filter _).length_le
    have h2 : (survivors ((s.particles.map (currentOf all)).take s.nbound)).length ≤ ((s.particles.map (currentOf all)).take s.nbound).length :=
      List.length_filter_le _ _
    have h3 : (survivors (s.particles.map (currentOf all))).length ≤ (s.particles.map (currentOf all)).length := List.length_filter_le _ _
    rw [List.length_take, List.length_map] at h2
    rw [List.length_map] at h3
    omega

theorem putSubs_ok [MassSum K] (b : Build K D S) (all : List (Particle D)) : ∀ ss : List (Sub K D),
    (∀ s ∈ ss, s.nbound ≤ s.particles.length) →
    putSubs b ss ((ss.map Sub.particles).map (List.map (currentOf all))) = .ok (ss.map (renew b all)) := by
  intro ss
  induction ss with
  | nil => intro _; rfl
  | cons s ss ih =>
    intro h
    have hs := h s List.mem_cons_self
    rw [List.map_cons, List.map_cons, putSubs]
    have h1 : kickInSub b.dmOnly s.nbound (s.particles.map (currentOf all))
        = .ok ((renew b all s).nbound, (renew b all s).particles) := by
      unfold kickInSub renew fresh
      cases b.dmOnly with
      | true => rfl
      | false =>
        simp only [Bool.false_eq_true, if_false]
        rw [(C20_kick_subhalo s.nbound (s.particles.map (currentOf all)) (by simpa using hs)).1, Outcome.bind_ok]
    rw [h1, Outcome.bind_ok]
    have h2 : countMass b.mass { s with nbound := (renew b all s).nbound, particles := (renew b all s).particles } = .ok (renew b all s) := by
      unfold countMass
      rw [if_pos (renew_le b all s hs).1]
      rfl
    rw [h2, Outcome.bind_ok, ih (fun s' hs' => h s' (List.mem_cons_of_mem _ hs')), Outcome.bind_ok]
    rfl

theorem updateSubs_ok [LE K] [MassSum K] [LE E] {P : Nat} {b : Build K D S} {ids : List Int} {w : SnapInput K D E S R P}
    {snap : Fin P → SnapRank D} {ranges : List Int} (hl : Loaded b ids w snap ranges) (cur : Fin P → List (Sub K D))
    (hn : ∀ r, ∀ s ∈ cur r, s.nbound ≤ s.particles.length) (hk : ∀ r, AllOf (fun p => Known b.dmOnly ids p.id) (cur r)) :
    updateSubs b ranges snap cur = .ok (fun r => (cur r).map (renew b (allParticles w.parts))) := by
  unfold updateSubs
  rw [hl.query _ (by
    intro r h hh p hp
    obtain ⟨s, hs, rfl⟩ := List.mem_map.1 hh
    exact hk r s hs p hp), Outcome.bind_ok]
  exact allRanks_ok _ _ (fun r => putSubs_ok b _ _ (hn r))

/-! ## Hosts -/

theorem mem_haloKeys : ∀ (hs : List (HaloRec S (Particle D))) (i : Nat) (k v : Int), (k, v) ∈ haloKeys hs i →
    ∃ j h, hs[j]? = some h ∧ v = ((i + j : Nat) : Int) ∧ ∃ p ∈ h.particles, p.id = k := by
  intro hs
  induction hs with
  | nil => intro i k v h; cases h
  | cons g hs ih =>
    intro i k v h
    rw [haloKeys, List.mem_append] at h
    rcases h with h | h
    · obtain ⟨p, hp, e⟩ := List.mem_map.1 h
      cases e
      exact ⟨0, g, rfl, by simp, p, hp, rfl⟩
    · obtain ⟨j, h', hj, e, hp⟩ := ih (i + 1) k v h
      exact ⟨j + 1, h', by simpa using hj, by rw [e]; push_cast; omega, hp⟩

theorem haloIndex_range [LE K] {b : Build K D S} (hb : BuildOk b) (hs : List (HaloRec S (Particle D))) (pid : Int) :
    -1 ≤ haloIndex b hs pid ∧ haloIndex b hs pid < hs.length := by
  unfold haloIndex
  by_cases h0 : pid < 0
  · rw [(C08_null_cases hb.search _ _ _).1 h0]
    unfold nullHalo
    omega
  · rcases C08_mapped_lookup hb.keys hb.search (haloKeys hs 0) nullHalo pid (by omega) with h | ⟨_, h⟩
    · obtain ⟨j, g, hj, e, _⟩ := mem_haloKeys hs 0 _ _ h
      rw [e]
      have := (List.getElem?_eq_some_iff.1 hj).1
      omega
    · rw [h]
      unfold nullHalo
      omega

theorem perm_map_lift {α β : Type} (f : α → β) {l : List α} {m : List β} (h : m.Perm (l.map f)) :
    ∃ l' : List α, l'.Perm l ∧ l'.map f = m := by
  have : (Relation.Comp (fun a b => a = List.map f b) List.Perm) m l := by
    rw [List.eq_map_comp_perm]
    exact h
  obtain ⟨l', h1, h2⟩ := this
  exact ⟨l', h2, h1.symm⟩

theorem scattered_perm {α : Type} {P : Nat} (l : Fin P → List α) (t : Fin P → α → Fin P) :
    (List.ofFn (fun r => (List.ofFn (fun r0 => (l r0).filter (fun x => decide (t r0 x = r)))).flatten)).flatten.Perm
      (List.ofFn l).flatten := by
  classical
  rw [List.perm_iff_count]
  intro a
  rw [List.count_flatten, List.map_ofFn, List.sum_ofFn, List.count_flatten, List.map_ofFn, List.sum_ofFn]
  simp only [Function.comp, List.count_flatten, List.map_ofFn, List.sum_ofFn]
  rw [Finset.sum_comm]
  refine Finset.sum_congr rfl (fun r0 _ => ?_)
  rw [Finset.sum_eq_single (t r0 a)]
  · rw [List.count_filter (by simp)]
  · intro r _ hne
    rw [List.count_eq_zero]
    intro hm
    have := (List.mem_filter.1 hm).2
    exact hne (by simpa using this : t r0 a = r).symm
  · intro h; exact absurd (Finset.mem_univ _) h

/-- Host assignment, with each subhalo paired with an original it comes from. -/
theorem assign_ok [LE K] [LE E] {P : Nat} {b : Build K D S} {ids : List Int} {w : SnapInput K D E S R P} (hb : BuildOk b)
    {snap : Fin P → SnapRank D} {ranges : List Int} (hl : Loaded b ids w snap ranges)
    (halos : Fin P → List (HaloRec S (Particle D))) (orig subs : Fin P → List (Sub K D))
    (hlen : ∀ r, (orig r).length = (subs r).length) (hall : ∀ r, AllOf (· ∈ allParticles w.parts) (subs r)) :
    ∃ (hosted moved : Fin P → List (Sub K D)),
      assignHosts b.hostChunk (fun r => haloIndex b (halos r)) (fun r => inSnapshot b (snap r)) subs = .ok hosted ∧
      (everyone moved).Perm (everyone orig) ∧
      ∀ r, List.Forall₂ (fun u t => ∃ r0 s h, (u, s) ∈ (orig r0).zip (subs r0) ∧ t = withHost s h ∧ -1 ≤ h ∧ h < (halos r).length ∧
        (s.particles = [] → h = -1)) (moved r) (hosted r) := by
  obtain ⟨hosted, pl, e, hpl, hperm⟩ := C22_assign_hosts b.hostChunk (fun r => haloIndex b (halos r))
    (fun r => inSnapshot b (snap r)) (fun q pid => (haloIndex_range hb (halos q) pid).1) subs
  let L : Fin P → List (Sub K D × Sub K D) := fun r => (List.ofFn (fun r0 => ((orig r0).zip (subs r0)).filter
    (fun us => decide ((pl r0 us.2).1 = r)) |>.map (fun us => (us.1, withHost us.2 (pl r0 us.2).2)))).flatten
  have hsnd : ∀ r, (L r).map Prod.snd = (List.ofFn (fun r0 => ((subs r0).filter (fun s => decide ((pl r0 s).1 = r))).map
        (fun s => withHost s (pl r0 s).2))).flatten := by
    intro r
    simp only [L]
    rw [List.map_flatten, List.map_ofFn]
    congr 2
    funext r0
    simp only [Function.comp, List.map_map]
    have e1 : subs r0 = ((orig r0).zip (subs r0)).map Prod.snd := (List.map_snd_zip (by rw [hlen])).symm
    conv_rhs => rw [e1, List.filter_map, List.map_map]
    rfl
  have hlift := fun r => perm_map_lift Prod.snd (l := L r) (m := hosted r) (by rw [hsnd]; exact hperm r)
  choose L' h1 h2 using hlift
  refine ⟨hosted, fun r => (L' r).map Prod.fst, e, ?_, fun r => ?_⟩
  · unfold everyone
    refine (flatten_perm _ (fun r => (L r).map Prod.fst) (fun r => (h1 r).map _)).trans ?_
    have e1 : (fun r => (L r).map Prod.fst) = fun r => ((List.ofFn (fun r0 => ((orig r0).zip (subs r0)).filter
        (fun us => decide ((pl r0 us.2).1 = r)))).flatten).map Prod.fst := by
      funext r
      simp only [L]
      rw [List.map_flatten, List.map_flatten, List.map_ofFn, List.map_ofFn]
      congr 2
      funext r0
      simp [Function.comp_def]
    rw [e1]
    have e2 : (List.ofFn fun r => ((List.ofFn (fun r0 => ((orig r0).zip (subs r0)).filter
        (fun us => decide ((pl r0 us.2).1 = r)))).flatten).map Prod.fst).flatten
        = ((List.ofFn fun r => (List.ofFn (fun r0 => ((orig r0).zip (subs r0)).filter
        (fun us => decide ((pl r0 us.2).1 = r)))).flatten).flatten).map Prod.fst := by
      rw [List.map_flatten, List.map_ofFn]
      rfl
    rw [e2]
    refine ((scattered_perm (fun r0 => (orig r0).zip (subs r0)) (fun r0 us => (pl r0 us.2).1)).map Prod.fst).trans (List.Perm.of_eq ?_)
    rw [List.map_flatten, List.map_ofFn]
    congr 2
    funext r0
    exact List.map_fst_zip (by rw [hlen])
  · rw [← h2 r, List.forall₂_map_left_iff, List.forall₂_map_right_iff]
    rw [List.forall₂_same]
    intro x hx
    have hx' := (h1 r).mem_iff.1 hx
    simp only [L] at hx'
    obtain ⟨l, hl', hxl⟩ := List.mem_flatten.1 hx'
    obtain ⟨r0, rfl⟩ := (List.mem_ofFn' _ _).1 hl'
    obtain ⟨us, hus, rfl⟩ := List.mem_map.1 hxl
    obtain ⟨hz, hr⟩ := List.mem_filter.1 hus
    have hr' : (pl r0 us.2).1 = r := by simpa using hr
    have hs : us.2 ∈ subs r0 := (List.of_mem_zip hz).2
    have hp := hpl r0 us.2 hs
    rw [hr'] at hp
    refine ⟨r0, us.2, (pl r0 us.2).2, hz, rfl, ?_⟩
    cases hps : us.2.particles with
    | nil =>
      have := (hp.empty hps).2
      rw [this]
      exact ⟨le_refl _, by omega, fun _ => rfl⟩
    | cons p ps =>
      by_cases hh : ∃ q, 0 ≤ haloIndex b (halos q) p.id
      · obtain ⟨h3, h4⟩ := hp.halo p ps hps hh
        rw [h4]
        have := haloIndex_range hb (halos r) p.id
        exact ⟨by omega, this.2, fun h => by cases h⟩
      · have hh' : ∀ q, haloIndex b (halos q) p.id < 0 := fun q => by
          by_contra hc
          exact hh ⟨q, by omega⟩
        obtain ⟨h3, _⟩ := hp.field p ps hps hh' (hl.found p (hall r0 us.2 hs p (by rw [hps]; exact List.mem_cons_self)))
        rw [h3]
        exact ⟨le_refl _, by omega, fun h => by cases h⟩

end HBT.MainLoop
