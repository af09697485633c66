import Verif.Lemmas.MergeAll
import Verif.Spec.Merge
import Verif.Spec.Run
import Mathlib.Algebra.Order.BigOperators.Group.List
/-!
# Whole runs

The steps of a snapshot, from `NestSubhalos` to `UpdateTracks`, one after the other over any number of
snapshots (HBT.cpp:40-90). The steps before (`UpdateParticles`, `AssignHosts`, `DecideCentrals`, `FeedCentrals`)
enter through what they may change.
-/
namespace HBT.Props
open HBT HBT.Model HBT.Spec HBT.Spec.Forest
variable {K D E : Type}

/-! ## Runs -/

/-- What is fixed for a run: the size of the broadcast buffer, the sort and search of the id table,
the sort by mass, the parameters of unbinding, the mass of a particle, `MergeTrappedSubhalos`, and
whether particles can be consumed (builds without `DM_ONLY`). -/
structure Params (K D : Type) where
  chunk : Nat
  sortKeys : List (Int × Int) → List (Int × Int)
  bsearch : Int → List (Int × Int) → Option (Int × Int)
  sortMass : List (Sub K D) → List Nat → List Nat
  cfg : UnbindConfig
  mass : D → K
  merging : Bool
  consumed : Bool

/-- Library functions that do what they should, and sensible parameters. -/
structure Params.Ok [LinearOrder K] (par : Params K D) : Prop where
  chunk : 0 < par.chunk
  keys : SortSpec par.sortKeys
  search : BsearchSpec par.bsearch
  sort : SortsByMass par.sortMass
  prec : Stops par.cfg.fl par.cfg.prec
  min : 2 ≤ par.cfg.minNum
  relax : Keeps par.cfg.fl par.cfg.relax

/-- What may happen to a subhalo between two snapshots: new particle data, host and mass
(`UpdateParticles`, `AssignHosts`); consumed particles are removed (`KickNullParticles`, src/subhalo.cpp:446-477);
`FeedCentrals` replaces the particles by those of the host, all bound. -/
structure Carried (consumed : Bool) (s s' : Sub K D) : Prop where
  rest : s' = { s with hostHaloId := s'.hostHaloId, particles := s'.particles, nbound := s'.nbound, mbound := s'.mbound }
  content : (s'.nbound = s.nbound ∧ s'.particles.length = s.particles.length) ∨ s'.nbound = s'.particles.length ∨
    (consumed = true ∧ s'.nbound ≤ s.nbound ∧ s'.nbound ≤ s'.particles.length ∧ s'.particles.length ≤ s.particles.length ∧
      (s.nbound = s.particles.length → s'.nbound = s'.particles.length))

/-- A snapshot: its number; the subhaloes distributed over the processes (`moved`), with their new
content (`old`), the new subhaloes, hosts and groups; the orders in which parallel iterations take
effect, the gravity solver and the sink criterion in each process. -/
structure Inputs (K D E : Type) (P : Nat) where
  snap : Int
  moved : Fin P → List (Sub K D)
  old : Fin P → List (Sub K D)
  new : Fin P → List (Sub K D)
  haloIds : Fin P → List Int
  groups : Fin P → List (List Nat)
  field : Fin P → List Nat
  order : Fin P → List Nat
  maskOrder : Fin P → List Nat
  hostOrder : Fin P → List Nat
  lone : Fin P → List Nat
  mergeOrder : Fin P → List Nat
  each : Fin P → List Nat
  env : Fin P → Nat → UnbindEnv K D E
  env' : Fin P → Nat → UnbindEnv K D E
  sunk : Fin P → Nat → Nat → Bool

/-- The inputs fit to the state `prev` after the last snapshot (which may have been computed by another number
of processes). -/
structure InputsOk [LE E] [Zero K] {Q P : Nat} (par : Params K D) (prev : Fin Q → List (Sub K D)) (x : Inputs K D E P) : Prop where
  snap : 0 ≤ x.snap
  arrival : Arrival prev x.old x.new x.haloIds x.groups x.field x.order
  moved : (everyone x.moved).Perm (everyone prev)
  carried : ∀ r, List.Forall₂ (Carried par.consumed) (x.moved r) (x.old r)
  born : ∀ r, ∀ s ∈ x.new r, s.nbound = s.particles.length ∧ s.lastMaxMass = 0 ∧ s.snapMaxMass = nullSnap ∧
    s.snapIsolation = nullSnap ∧ s.snapBirth = x.snap ∧ s.snapDeath = nullSnap ∧ s.snapSink = nullSnap ∧
    s.sinkTrackId = nullTrack
  maskOrder : ∀ r, (x.maskOrder r).Perm (List.range (x.groups r).length)
  hostOrder : ∀ r, (x.hostOrder r).Perm (List.range (x.groups r).length)
  lone : ∀ r, (x.lone r).Perm (x.field r ++ (List.range (x.new r).length).map ((x.old r).length + ·))
  mergeOrder : ∀ r, (x.mergeOrder r).Perm (List.range (x.groups r).length)
  each : ∀ r, (x.each r).Perm (List.range ((x.old r).length + (x.new r).length))
  env : ∀ r i, EnvOk (x.env r i) ∧ (x.env r i).mass = par.mass
  env' : ∀ r i, EnvOk (x.env' r i) ∧ (x.env' r i).mass = par.mass

/-- A snapshot with the states after `NestSubhalos`, `MaskSubhalos`, `RefineParticles`, `MergeSubhalos` and
`UpdateTracks`. -/
structure Snapshot (K D E : Type) (P : Nat) extends Inputs K D E P where
  nested : Fin P → List (Sub K D) × List (List Nat)
  masked : Fin P → List (Sub K D)
  refined : Fin P → List (Sub K D)
  merged : Fin P → List (Sub K D)
  out : Fin P → List (Sub K D)

/-- The states are those computed by the code. -/
structure Computed [LE K] [DecidableLE K] [MassSum K] [LT E] [DecidableLT E] [Zero E] {P : Nat} (par : Params K D)
    (d : Snapshot K D E P) : Prop where
  nest : nestSubhalos par.chunk par.sortKeys par.bsearch d.order d.groups d.field (fun r => d.old r ++ d.new r) = .ok d.nested
  mask : ∀ r, maskSubhalos (d.nested r).1.length (d.maskOrder r) (d.groups r) (d.nested r).2 (d.nested r).1 = .ok (d.masked r)
  refine_ : ∀ r, refineParticles par.cfg (d.env r) d.snap (d.masked r).length (d.hostOrder r) (d.lone r) (d.groups r)
    (d.nested r).2 (d.masked r) = .ok (d.refined r)
  merge : ∀ r, mergeSubhalos par.cfg (d.env' r) par.mass par.merging (d.sunk r) d.snap ((d.refined r).length + 1) (d.mergeOrder r)
    (d.each r) (d.groups r) (d.nested r).2 (d.refined r) = .ok (d.merged r)
  update : updateTracks par.sortMass d.snap d.haloIds (fun r => (d.new r).length) (fun r => (d.nested r).2) d.merged = .ok d.out

/-- The state after the latest snapshot: the number of processes and the subhaloes of each. -/
def latest : List (Σ P, Snapshot K D E P) → Σ P, (Fin P → List (Sub K D))
  | [] => ⟨0, fun _ => []⟩
  | d :: _ => ⟨d.1, d.2.out⟩

/-- All runs; the latest snapshot comes first. Each snapshot may be computed by another number of processes. -/
inductive Run [LinearOrder K] [MassSum K] [LinearOrder E] [Zero E] (par : Params K D) : List (Σ P, Snapshot K D E P) → Prop
  | start : Run par []
  | next (tr : List (Σ P, Snapshot K D E P)) {P : Nat} (d : Snapshot K D E P) (h : Run par tr) (ok : InputsOk par (latest tr).2 d.toInputs)
      (later : ∀ x ∈ tr, x.2.snap < d.snap) (comp : Computed par d) : Run par (⟨P, d⟩ :: tr)

/-- The states at the ends of the snapshots. -/
def ends (tr : List (Σ P, Snapshot K D E P)) : List (Int × List (Sub K D)) := tr.map (fun d => (d.2.snap, everyone d.2.out))

/-- The states in which it has been decided who is resolved: after unbinding and at the end of each
snapshot. -/
def checks (tr : List (Σ P, Snapshot K D E P)) : List (Int × List (Sub K D)) :=
  tr.flatMap (fun d => [(d.2.snap, everyone d.2.out), (d.2.snap, everyone d.2.refined)])

/-! ## One snapshot -/

/-- The state of each subhalo between snapshots. -/
structure Tidy (minNum : Nat) (s : Sub K D) : Prop where
  alive : Alive s ↔ Resolved s
  le : s.nbound ≤ s.particles.length
  two : minNum ≤ s.nbound ∨ (s.nbound ≤ 1 ∧ s.particles.length = s.nbound)

/-- What unbinding and merging have in common. -/
structure Judged (minNum : Nat) (snap : Int) (s s' : Sub K D) : Prop where
  trackId : s'.trackId = s.trackId
  host : s'.hostHaloId = s.hostHaloId
  lastMax : s'.lastMaxMass = s.lastMaxMass
  snapMax : s'.snapMaxMass = s.snapMaxMass
  isolation : s'.snapIsolation = s.snapIsolation
  birth : s'.snapBirth = s.snapBirth
  tidy : Tidy minNum s'
  death : s'.snapDeath = if 1 < s'.nbound then nullSnap else if s.snapDeath = nullSnap then snap else s.snapDeath

theorem refinedSub_judged [MassSum K] {minNum : Nat} (hmin : 2 ≤ minNum) {mass : D → K} {snap : Int} (hsnap : snap ≠ nullSnap)
    {s s' : Sub K D} (h : RefinedSub minNum mass snap s s') : Judged minNum snap s s' := by
  have hres : Resolved s' ↔ minNum ≤ s'.nbound := by
    unfold Resolved
    rcases h.two with h1 | h1 <;> omega
  have hd : s'.snapDeath = if 1 < s'.nbound then nullSnap else if s.snapDeath = nullSnap then snap else s.snapDeath := by
    rw [h.death]
    unfold Resolved at hres
    simp only [hres]
  refine ⟨h.same.trackId, h.same.host, h.same.lastMax, h.same.snapMax, h.same.isolation, h.same.birth, ⟨?_, h.le, h.two⟩, hd⟩
  unfold Alive
  rw [hd]
  split_ifs with h1 h2
  · exact ⟨fun _ => h1, fun _ => rfl⟩
  · exact ⟨fun h' => absurd h' hsnap, fun h' => absurd h' h1⟩
  · exact ⟨fun h' => absurd h' h2, fun h' => absurd h' h1⟩

theorem refinedSub_settled [MassSum K] {minNum : Nat} (hmin : 2 ≤ minNum) {mass : D → K} {snap : Int} (hsnap : snap ≠ nullSnap)
    {s s' : Sub K D} (h : RefinedSub minNum mass snap s s') : Settled minNum s' := by
  have hj := refinedSub_judged hmin hsnap h
  refine ⟨fun ha => ?_, h.le, fun hd => ?_⟩
  · have := hj.tidy.alive.1 ha
    have hm : minNum ≤ s'.nbound := by
      unfold Resolved at this
      rcases h.two with h1 | h1 <;> omega
    exact ⟨hm, by rw [h.sink, if_pos hm]⟩
  · have : ¬ Resolved s' := fun h' => hd (hj.tidy.alive.2 h')
    unfold Resolved at this
    rcases h.two with h1 | h1
    · omega
    · exact h1

/-- Merging. -/
theorem merging_judged [MassSum K] {on : Bool} {minNum : Nat} (hmin : 2 ≤ minNum) {mass : D → K} {snap : Int} (hsnap : snap ≠ nullSnap)
    {contains : Nat → Nat → Prop} {sunk : Nat → Nat → Bool} {before after : List (Sub K D)} {traps merges : Nat → Option Nat}
    {middle : Nat → List (Particle D)} (h : MergingCore on minNum mass snap contains sunk before after traps merges middle)
    (ht : ∀ s ∈ before, Tidy minNum s) {i : Nat} {s s' : Sub K D} (hs : before[i]? = some s) (hs' : after[i]? = some s') :
    Judged minNum snap s s' := by
  obtain ⟨u, hu, hsame, _⟩ := h.each i s hs
  rw [hs'] at hu
  cases hu
  have hts := ht s (List.mem_of_getElem? hs)
  cases hm : merges i with
  | some p =>
    obtain ⟨a1, a2, a3, a4, _⟩ := h.away i p s s' hs hs' hm
    have hnr : ¬ Resolved s' := by unfold Resolved; omega
    have hal := ((h.merges_ i s hs p).1 hm).2.1
    unfold Alive at hal
    refine ⟨hsame.trackId, hsame.host, hsame.lastMax, hsame.snapMax, hsame.isolation, hsame.birth, ⟨?_, by omega, Or.inr (by omega)⟩, ?_⟩
    · unfold Alive
      rw [a4]
      exact ⟨fun h' => absurd h' hsnap, fun h' => absurd h' hnr⟩
    · rw [if_neg (show ¬ 1 < s'.nbound from hnr), if_pos hal, a4]
  | none =>
    by_cases hj : ∃ j, merges j = some i
    · obtain ⟨j, hj⟩ := hj
      have hg := refinedSub_judged hmin hsnap (h.grown i s s' j hs hs' hm hj).2.1
      exact ⟨hg.trackId, hg.host, hg.lastMax, hg.snapMax, hg.isolation, hg.birth, hg.tidy, hg.death⟩
    · obtain ⟨a1, a2, a3, a4⟩ := h.still i s s' hs hs' hm (fun j hj' => hj ⟨j, hj'⟩)
      have hR : Resolved s' ↔ Resolved s := by unfold Resolved; rw [a1]
      refine ⟨hsame.trackId, hsame.host, hsame.lastMax, hsame.snapMax, hsame.isolation, hsame.birth, ⟨?_, ?_, ?_⟩, ?_⟩
      · unfold Alive
        rw [a4, hR]
        exact hts.alive
      · rw [a1, a3]; exact hts.le
      · rw [a1, a3]; exact hts.two
      · rw [a4]
        have := hts.alive
        unfold Alive at this
        by_cases hr : Resolved s
        · rw [if_pos (show 1 < s'.nbound from hR.2 hr)]; exact this.2 hr
        · rw [if_neg (fun h' : 1 < s'.nbound => hr (hR.1 h')), if_neg (fun h' => hr (this.1 h'))]

theorem contains_irrefl {subs : List (Sub K D)} {nold : Nat} {groups heads : List (List Nat)} {field : List Nat}
    (h : Layout subs nold groups heads field) (i : Nat) : ¬ Contains subs groups i i := by
  intro hi
  obtain ⟨g, hg, hig, _⟩ := contains_group h hi
  obtain ⟨j, hj, hgj⟩ := List.getElem_of_mem hg
  have hlen : groups.length = heads.length := h.forests.length_eq
  have hforest := (List.forall₂_iff_get.1 h.forests).2 j hj (by omega)
  have hheads : heads[j]'(by omega) = groups[j].filter (isTop subs) := by
    have := h.heads_
    simp [this]
  have hgn : groups[j].Nodup := by
    have := h.nodup
    rw [List.nodup_flatten] at this
    exact this.1 _ (List.getElem_mem hj)
  simp only [List.get_eq_getElem] at hforest
  rw [hheads] at hforest
  rw [hgj] at hforest hgn
  generalize hhs : g.filter (isTop subs) = hs' at hforest
  cases hforest with
  | empty => cases hig
  | tops c t k rest hsh hnodes =>
    have := contains_inside h hg hsh hnodes hhs hi hig
    refine not_inside_self ?_ this
    have : (Forest.cons c (k ++ rest) Forest.nil).nodes.Perm (c :: t) := by
      refine List.Perm.trans (List.Perm.of_eq ?_) hnodes
      simp [nodes_cons, nodes_append]
    exact this.nodup_iff.2 hgn

/-- What is true of every snapshot. -/
structure SnapFacts [LinearOrder K] [MassSum K] {Q P : Nat} (par : Params K D) (prev : Fin Q → List (Sub K D)) (d : Snapshot K D E P) : Prop where
  framed : ∀ r, AllFramed (d.old r ++ d.new r) (d.nested r).1
  masked_ : ∀ r, List.Forall₂ (fun s s' : Sub K D => ∃ ps, s' = s.withParticles ps ∧ ps.Sublist s.particles ∧
    (¬ Resolved s → ps = s.particles)) (d.nested r).1 (d.masked r)
  exclusive : ∀ r, ∀ g ∈ d.groups r, MaskedHost (Contains (d.nested r).1 (d.groups r)) g (d.nested r).1 (d.masked r)
  refined_ : ∀ r, RefinedSnap par.cfg (fun _ => par.mass) d.snap (d.groups r) (d.masked r) (d.refined r)
  layout : ∀ r, Layout (d.refined r) (d.old r).length (d.groups r) (d.nested r).2 (d.field r)
  merged_ : ∀ r, ∃ traps merges middle, Merging par.merging par.cfg.minNum par.mass d.snap (Contains (d.refined r) (d.groups r))
    (d.sunk r) (d.refined r) (d.merged r) traps merges middle
  registered : ∃ reg, registerNewTracks d.merged (fun r => (d.new r).length) = .ok reg ∧ ∀ r, Registered d.snap (d.haloIds r) (d.nested r).2 (reg r)
  sound : Sound d.out
  updated : ∃ N, Dense prev N ∧ ∀ r, ∃ reg, reg = (d.merged r).take (d.old r).length ++
      numbered (resolved ((d.merged r).drop (d.old r).length)) ((N + birthsBefore d.merged (fun r => (d.new r).length) r : Nat) : Int) ∧
    List.Forall₂ (Renewed d.snap (d.haloIds r) reg) reg (d.out r)

/-- What of this is true with inclusive masses too. -/
structure SnapCore [LinearOrder K] [MassSum K] {Q P : Nat} (par : Params K D) (prev : Fin Q → List (Sub K D)) (d : Snapshot K D E P) : Prop where
  framed : ∀ r, AllFramed (d.old r ++ d.new r) (d.nested r).1
  masked_ : ∀ r, List.Forall₂ (fun s s' : Sub K D => ∃ ps, s' = s.withParticles ps ∧ ps.Sublist s.particles ∧
    (¬ Resolved s → ps = s.particles)) (d.nested r).1 (d.masked r)
  refined_ : ∀ r, RefinedEach par.cfg (fun _ => par.mass) d.snap (d.masked r) (d.refined r)
  layout : ∀ r, Layout (d.refined r) (d.old r).length (d.groups r) (d.nested r).2 (d.field r)
  merged_ : ∀ r, ∃ traps merges middle, MergingCore par.merging par.cfg.minNum par.mass d.snap (Contains (d.refined r) (d.groups r))
    (d.sunk r) (d.refined r) (d.merged r) traps merges middle
  updated : ∃ N, Dense prev N ∧ ∀ r, ∃ reg, reg = (d.merged r).take (d.old r).length ++
      numbered (resolved ((d.merged r).drop (d.old r).length)) ((N + birthsBefore d.merged (fun r => (d.new r).length) r : Nat) : Int) ∧
    List.Forall₂ (Renewed d.snap (d.haloIds r) reg) reg (d.out r)

theorem SnapFacts.core [LinearOrder K] [MassSum K] {Q P : Nat} {par : Params K D} {prev : Fin Q → List (Sub K D)} {d : Snapshot K D E P}
    (h : SnapFacts par prev d) : SnapCore par prev d :=
  ⟨h.framed, h.masked_, fun r => (h.refined_ r).toRefinedEach, h.layout, fun r => by
    obtain ⟨a, b, c, hm⟩ := h.merged_ r
    exact ⟨a, b, c, hm.toMergingCore⟩, h.updated⟩

theorem computed_unique [LE K] [DecidableLE K] [MassSum K] [LT E] [DecidableLT E] [Zero E] {P : Nat} {par : Params K D}
    {d d' : Snapshot K D E P} (e : d.toInputs = d'.toInputs) (h : Computed par d) (h' : Computed par d') : d = d' := by
  obtain ⟨x, n, m, f, g, o⟩ := d
  obtain ⟨x', n', m', f', g', o'⟩ := d'
  simp only at e
  subst e
  have e1 : n = n' := by
    have := h.nest.symm.trans h'.nest
    simpa using this
  subst e1
  have e2 : m = m' := by
    funext r
    have := (h.mask r).symm.trans (h'.mask r)
    simpa using this
  subst e2
  have e3 : f = f' := by
    funext r
    have := (h.refine_ r).symm.trans (h'.refine_ r)
    simpa using this
  subst e3
  have e4 : g = g' := by
    funext r
    have := (h.merge r).symm.trans (h'.merge r)
    simpa using this
  subst e4
  have e5 : o = o' := by
    have := h.update.symm.trans h'.update
    simpa using this
  subst e5
  rfl

theorem mem_everyone {P : Nat} {st : Fin P → List (Sub K D)} {s : Sub K D} : s ∈ everyone st ↔ ∃ r, s ∈ st r := by
  unfold everyone
  rw [List.mem_flatten]
  constructor
  · rintro ⟨l, hl, hs⟩
    obtain ⟨r, rfl⟩ := (List.mem_ofFn' _ _).1 hl
    exact ⟨r, hs⟩
  · rintro ⟨r, hs⟩
    exact ⟨_, (List.mem_ofFn' _ _).2 ⟨r, rfl⟩, hs⟩

/-- What `MergeSubhalos` leaves fits `UpdateTracks`. -/
theorem merged_fits [LinearOrder K] [MassSum K] [LinearOrder E] [Zero E] {Q P : Nat} {par : Params K D}
    {prev : Fin Q → List (Sub K D)} {x : Inputs K D E P} (hx : InputsOk par prev x) (hold : ∀ r, ∀ s ∈ prev r, s.snapSink < x.snap)
    {nested : Fin P → List (Sub K D) × List (List Nat)} {masked refined merged : Fin P → List (Sub K D)}
    (hfr : ∀ r, AllFramed (x.old r ++ x.new r) (nested r).1)
    (hmf : ∀ r, List.Forall₂ (fun s s' : Sub K D => ∃ ps, s' = s.withParticles ps ∧ ps.Sublist s.particles ∧
      (¬ Resolved s → ps = s.particles)) (nested r).1 (masked r))
    (hfs : ∀ r, RefinedEach par.cfg (fun _ => par.mass) x.snap (masked r) (refined r))
    (hfl : ∀ r, Layout (refined r) (x.old r).length (x.groups r) (nested r).2 (x.field r))
    {traps merges : Fin P → Nat → Option Nat} {middle : Fin P → Nat → List (Particle D)}
    (hgs : ∀ r, MergingCore par.merging par.cfg.minNum par.mass x.snap (Contains (refined r) (x.groups r)) (x.sunk r) (refined r) (merged r)
        (traps r) (merges r) (middle r)) :
    (∀ r, List.Forall₂ Kept (nested r).1 (merged r)) ∧
    ∀ r, ∀ s ∈ merged r, s.snapSink = x.snap → 0 ≤ s.sinkTrackId ∧ s.sinkTrackId < (x.old r).length := by
  have hsnap : x.snap ≠ nullSnap := by
    have := hx.snap
    unfold nullSnap
    omega
  have hlay : ∀ r, AllFramed (x.old r ++ x.new r) (nested r).1 ∧ True := fun r => ⟨hfr r, trivial⟩
  have hlen : ∀ r, (nested r).1.length = (x.old r).length + (x.new r).length := fun r => by
    rw [(allFramed_iff.1 (hlay r).1).1, List.length_append]
  have hlenm : ∀ r, (masked r).length = (x.old r).length + (x.new r).length := fun r => by rw [← hlen r, (hmf r).length_eq]
  have hlenf : ∀ r, (refined r).length = (x.old r).length + (x.new r).length := fun r => by rw [(hfs r).length, hlenm r]
  have hback : ∀ r (i : Nat) (s' : Sub K D), (refined r)[i]? = some s' → ∃ s, (masked r)[i]? = some s ∧
      RefinedSub par.cfg.minNum par.mass x.snap s s' := by
    intro r i s' hs'
    have hi : i < (masked r).length := by rw [← (hfs r).length]; exact (List.getElem?_eq_some_iff.1 hs').1
    obtain ⟨u, hu, hr⟩ := (hfs r).each i _ (List.getElem?_eq_getElem hi)
    rw [hs'] at hu
    cases hu
    exact ⟨_, List.getElem?_eq_getElem hi, hr⟩
  have hgback : ∀ r (i : Nat) (s' : Sub K D), (merged r)[i]? = some s' → ∃ s0 s1 s2 s3, (x.old r ++ x.new r)[i]? = some s0 ∧
      (nested r).1[i]? = some s1 ∧ (masked r)[i]? = some s2 ∧ (refined r)[i]? = some s3 ∧ Framed s0 s1 ∧
      (∃ ps, s2 = s1.withParticles ps) ∧ RefinedSub par.cfg.minNum par.mass x.snap s2 s3 ∧ SameTrack s3 s' ∧
      (∀ p, traps r i = some p → s'.sinkTrackId = (p : Int) ∧ s'.snapSink = x.snap) ∧
      (traps r i = none → s'.sinkTrackId = s3.sinkTrackId ∧ s'.snapSink = s3.snapSink) := by
    intro r i s' hs'
    have hi : i < (refined r).length := by rw [← (hgs r).length]; exact (List.getElem?_eq_some_iff.1 hs').1
    obtain ⟨u, hu, h1, h2, h3⟩ := (hgs r).each i _ (List.getElem?_eq_getElem hi)
    rw [hs'] at hu
    cases hu
    obtain ⟨s2, hs2, hr⟩ := hback r i _ (List.getElem?_eq_getElem hi)
    obtain ⟨s1, hs1, ps, hp, _⟩ := forall₂_get' (hmf r) i s2 hs2
    obtain ⟨s0, hs0, hfr⟩ := forall₂_get' (hlay r).1 i s1 hs1
    exact ⟨s0, s1, s2, _, hs0, hs1, hs2, List.getElem?_eq_getElem hi, hfr, ⟨ps, hp⟩, hr, h1, h2, h3⟩
  have hkept : ∀ r, List.Forall₂ Kept (nested r).1 (merged r) := by
    intro r
    rw [List.forall₂_iff_get]
    refine ⟨by rw [hlen r, (hgs r).length, hlenf r], fun i h1 h2 => ?_⟩
    simp only [List.get_eq_getElem]
    obtain ⟨s0, s1, s2, s3, _, q1, _, _, _, ⟨ps, rfl⟩, hr, hsame, _⟩ := hgback r i _ (List.getElem?_eq_getElem h2)
    rw [List.getElem?_eq_getElem h1] at q1
    cases q1
    refine ⟨?_, ?_, ?_, ?_⟩
    · rw [hsame.trackId, hr.same.trackId]; rfl
    · rw [hsame.host, hr.same.host]; rfl
    · rw [hsame.rank, hr.same.rank]; rfl
    · rw [hsame.nested, hr.same.nested]; rfl
  have holdsink : ∀ r, ∀ s ∈ x.old r ++ x.new r, s.snapSink < x.snap := by
    intro r s hs
    rw [List.mem_append] at hs
    rcases hs with hs | hs
    · obtain ⟨i, hi⟩ := List.getElem?_of_mem hs
      obtain ⟨u, hu, hc⟩ := forall₂_get' (hx.carried r) i s hi
      have hu2 : u ∈ everyone prev := hx.moved.mem_iff.1 (mem_everyone.2 ⟨r, List.mem_of_getElem? hu⟩)
      obtain ⟨r', hr'⟩ := mem_everyone.1 hu2
      have := hold r' u hr'
      rw [hc.rest]
      exact this
    · have := (hx.born r s hs).2.2.2.2.2.2.1
      have h0 := hx.snap
      rw [this]
      unfold nullSnap
      omega
  have hsink : ∀ r, ∀ s ∈ merged r, s.snapSink = x.snap → 0 ≤ s.sinkTrackId ∧ s.sinkTrackId < (x.old r).length := by
    intro r s hs hsn
    obtain ⟨i, hi⟩ := List.getElem?_of_mem hs
    obtain ⟨s0, s1, s2, s3, q0, q1, q2, q3, hfr, ⟨ps, hps⟩, hr, hsame, h1, h2⟩ := hgback r i s hi
    cases ht : traps r i with
    | none =>
      exfalso
      rw [(h2 ht).2, hr.snapSink] at hsn
      have h01 : s2.snapSink = s0.snapSink := by
        rw [hps]
        unfold Framed at hfr
        rw [hfr]
        rfl
      have := holdsink r s0 (List.mem_of_getElem? q0)
      split_ifs at hsn
      · exact hsnap hsn.symm
      · omega
    | some p =>
      have hf : s3.sinkTrackId = nullTrack := by
        by_contra hne
        have := (hgs r).old i s3 q3 hne
        rw [this] at ht
        cases ht
      have hfound := (hgs r).found i s3 q3 hf
      rw [ht] at hfound
      obtain ⟨g, hg, hp, _⟩ := contains_group (hfl r) hfound.1
      rw [(h1 p ht).1]
      have := (hfl r).lt hg hp
      omega
  exact ⟨hkept, hsink⟩

/-- The steps of a snapshot succeed. -/
theorem snapshot_ok [LinearOrder K] [MassSum K] [LinearOrder E] [Zero E] {Q P : Nat} {par : Params K D} (hpar : par.Ok)
    {prev : Fin Q → List (Sub K D)} (hsound : Sound prev) {x : Inputs K D E P} (hx : InputsOk par prev x)
    (hold : ∀ r, ∀ s ∈ prev r, s.snapSink < x.snap) :
    ∃ d : Snapshot K D E P, d.toInputs = x ∧ Computed par d ∧ SnapFacts par prev d := by
  obtain ⟨⟨G, hG⟩, ⟨N, hN⟩, _⟩ := hsound
  have hsnap : x.snap ≠ nullSnap := by
    have := hx.snap
    unfold nullSnap
    omega
  obtain ⟨nested, en, hn⟩ := nest_step par.chunk hpar.chunk hpar.keys hpar.search hx.arrival hG
  have hlay := layout_step par.chunk hpar.chunk hpar.keys hpar.search hx.arrival hG en
  have hlen : ∀ r, (nested r).1.length = (x.old r).length + (x.new r).length := fun r => by
    rw [(allFramed_iff.1 (hlay r).1).1, List.length_append]
  have hm : ∀ r, ∃ masked, maskSubhalos (nested r).1.length (x.maskOrder r) (x.groups r) (nested r).2 (nested r).1 = .ok masked ∧
      Layout masked (x.old r).length (x.groups r) (nested r).2 (x.field r) ∧
      List.Forall₂ (fun s s' : Sub K D => ∃ ps, s' = s.withParticles ps ∧ ps.Sublist s.particles ∧
        (¬ Resolved s → ps = s.particles)) (nested r).1 masked ∧
      ∀ g ∈ x.groups r, MaskedHost (Contains (nested r).1 (x.groups r)) g (nested r).1 masked := by
    intro r
    obtain ⟨m, e, _⟩ := mask_layout (hlay r).2 (le_refl _) (hx.maskOrder r)
    exact ⟨m, e, masked_particles (hlay r).2 (le_refl _) (hx.maskOrder r) e⟩
  choose masked em hml hmf hmm using hm
  have hlenm : ∀ r, (masked r).length = (x.old r).length + (x.new r).length := fun r => by rw [← hlen r, (hmf r).length_eq]
  have hf : ∀ r, ∃ refined, refineParticles par.cfg (x.env r) x.snap (masked r).length (x.hostOrder r) (x.lone r) (x.groups r)
      (nested r).2 (masked r) = .ok refined ∧ RefinedSnap par.cfg (fun _ => par.mass) x.snap (x.groups r) (masked r) refined := by
    intro r
    obtain ⟨out, e, ho⟩ := refine_snap (env := x.env r) ⟨fun i => (hx.env r i).1, hpar.prec, hpar.min⟩ hpar.relax x.snap (hml r)
      (le_refl _) (hx.hostOrder r) (lone := x.lone r) (by
        rw [hlenm r, Nat.add_sub_cancel_left]
        exact hx.lone r)
    have hmass : (fun i => (x.env r i).mass) = fun _ => par.mass := funext (fun i => (hx.env r i).2)
    rw [hmass] at ho
    exact ⟨out, e, ho⟩
  choose refined ef hfs using hf
  have hlenf : ∀ r, (refined r).length = (x.old r).length + (x.new r).length := fun r => by rw [(hfs r).length, hlenm r]
  have hback : ∀ r (i : Nat) (s' : Sub K D), (refined r)[i]? = some s' → ∃ s, (masked r)[i]? = some s ∧
      RefinedSub par.cfg.minNum par.mass x.snap s s' := by
    intro r i s' hs'
    have hi : i < (masked r).length := by rw [← (hfs r).length]; exact (List.getElem?_eq_some_iff.1 hs').1
    obtain ⟨u, hu, hr⟩ := (hfs r).each i _ (List.getElem?_eq_getElem hi)
    rw [hs'] at hu
    cases hu
    exact ⟨_, List.getElem?_eq_getElem hi, hr⟩
  have hfl : ∀ r, Layout (refined r) (x.old r).length (x.groups r) (nested r).2 (x.field r) := by
    intro r
    refine (hml r).congr ?_
    rw [List.forall₂_iff_get]
    refine ⟨(hfs r).length.symm, fun i h1 h2 => ?_⟩
    simp only [List.get_eq_getElem]
    obtain ⟨s, hs, hr⟩ := hback r i _ (List.getElem?_eq_getElem h2)
    rw [List.getElem?_eq_getElem h1] at hs
    cases hs
    exact ⟨hr.same.rank, hr.same.nested⟩
  have hg : ∀ r, ∃ merged traps merges middle, mergeSubhalos par.cfg (x.env' r) par.mass par.merging (x.sunk r) x.snap
      ((refined r).length + 1) (x.mergeOrder r) (x.each r) (x.groups r) (nested r).2 (refined r) = .ok merged ∧
      Merging par.merging par.cfg.minNum par.mass x.snap (Contains (refined r) (x.groups r)) (x.sunk r) (refined r) merged
        traps merges middle := by
    intro r
    refine merge_snap (env := x.env' r) ⟨fun i => (hx.env' r i).1, hpar.prec, hpar.min⟩ hpar.relax par.mass
      (fun i => (hx.env' r i).2) par.merging (x.sunk r) hsnap (hfl r) ?_ (Nat.lt_succ_self _) (hx.mergeOrder r) (by
        rw [hlenf r]; exact hx.each r)
    intro s hs
    obtain ⟨i, hi⟩ := List.getElem?_of_mem hs
    obtain ⟨u, _, hr⟩ := hback r i s hi
    exact refinedSub_settled hpar.min hsnap hr
  choose merged traps merges middle eg hgs using hg
  obtain ⟨hkept, hsink⟩ := merged_fits hx hold (fun r => (hlay r).1) hmf (fun r => (hfs r).toRefinedEach) hfl (fun r => (hgs r).toMergingCore)
  obtain ⟨out, eo, hs, hreg⟩ := update_step hpar.sort x.snap hx.arrival hG hN (fun r => (hn r).1) hkept hsink
  obtain ⟨reg, er, _, _, hrr⟩ := register_step x.snap hx.arrival hN (fun r => (hn r).1) hkept hsink
  exact ⟨⟨x, nested, masked, refined, merged, out⟩, rfl, ⟨en, em, ef, eg, eo⟩,
    ⟨fun r => (hlay r).1, hmf, hmm, hfs, hfl, fun r => ⟨_, _, _, hgs r⟩, ⟨reg, er, hrr⟩, hs, N, hN, hreg⟩⟩

/-! ## One track over one snapshot -/

/-- In builds where no particle is consumed, orphans have at most one particle. -/
theorem orphans_single [LinearOrder K] [MassSum K] [LE E] {Q P : Nat} {par : Params K D} (hmin : 2 ≤ par.cfg.minNum)
    {prev : Fin Q → List (Sub K D)} {d : Snapshot K D E P} (hx : InputsOk par prev d.toInputs) (hf : SnapFacts par prev d)
    (ht : ∀ r, ∀ s ∈ prev r, Tidy par.cfg.minNum s) (hc : par.consumed = false) (r : Fin P) : OrphansSingle (d.masked r) := by
  intro s2 hs2 hn
  obtain ⟨i, hi⟩ := List.getElem?_of_mem hs2
  obtain ⟨s1, hs1, ps, rfl, hsub, _⟩ := forall₂_get' (hf.masked_ r) i s2 hi
  obtain ⟨s0, hs0, hfr⟩ := forall₂_get' (hf.framed r) i s1 hs1
  unfold Framed at hfr
  have hle := hsub.length_le
  have h1 : s1.particles = s0.particles := by rw [hfr]; rfl
  have h2 : s1.nbound = s0.nbound := by rw [hfr]; rfl
  have hn' : ¬ 1 < s0.nbound := by rw [← h2]; exact hn
  simp only [Sub.withParticles_particles]
  rw [h1] at hle
  refine hle.trans ?_
  have := List.mem_of_getElem? hs0
  rw [List.mem_append] at this
  rcases this with ho | ho
  · obtain ⟨j, hj⟩ := List.getElem?_of_mem ho
    obtain ⟨u, hu, hcar⟩ := forall₂_get' (hx.carried r) j s0 hj
    obtain ⟨r', hr'⟩ := mem_everyone.1 (hx.moved.mem_iff.1 (mem_everyone.2 ⟨r, List.mem_of_getElem? hu⟩))
    have htu := ht r' u hr'
    rcases hcar.content with h | h | h
    · rcases htu.two with h3 | h3 <;> omega
    · omega
    · rw [hc] at h
      exact absurd h.1 (by simp)
  · have := (hx.born r s0 ho).1
    omega

/-- A track from one snapshot (`u`) through the state after unbinding (`v`) to the next (`s`). -/
structure ContinuesOf [LinearOrder K] [MassSum K] (B : Sub K D → Prop) (par : Params K D) (snap : Int) (ids : List Int) (u v s : Sub K D) : Prop where
  trackId : s.trackId = u.trackId
  trackId' : v.trackId = u.trackId
  tidy' : Tidy par.cfg.minNum v
  tidy : Tidy par.cfg.minNum s
  death' : v.snapDeath = if 1 < v.nbound then nullSnap else if u.snapDeath = nullSnap then snap else u.snapDeath
  death : s.snapDeath = if 1 < s.nbound then nullSnap else if v.snapDeath = nullSnap then snap else v.snapDeath
  lastMax : s.lastMaxMass = if u.lastMaxMass ≤ s.mbound then s.mbound else u.lastMaxMass
  snapMax : s.snapMaxMass = if u.lastMaxMass ≤ s.mbound then snap else u.snapMaxMass
  isolation : s.snapIsolation = if s.rank = 0 then snap else u.snapIsolation
  birth : s.snapBirth = u.snapBirth
  sink : (s.sinkTrackId = u.sinkTrackId ∧ s.snapSink = u.snapSink) ∨ (s.sinkTrackId = nullTrack ∧ s.snapSink = nullSnap) ∨
    (s.sinkTrackId ∈ ids ∧ s.sinkTrackId ≠ s.trackId ∧ s.snapSink = snap)
  bound : par.consumed = false → B s

/-- `B` is what is known of the bound mass. -/
abbrev Continues [LinearOrder K] [MassSum K] (par : Params K D) : Int → List Int → Sub K D → Sub K D → Sub K D → Prop :=
  ContinuesOf (BoundMass par.mass) par

/-- A track that begins in this snapshot. -/
structure BeginsOf [LinearOrder K] [MassSum K] (B : Sub K D → Prop) (par : Params K D) (snap : Int) (ids : List Int) (s : Sub K D) : Prop where
  trackId : s.trackId ∉ ids
  nonneg : 0 ≤ s.trackId
  resolved : Resolved s
  tidy : Tidy par.cfg.minNum s
  lastMax : s.lastMaxMass = if 0 ≤ s.mbound then s.mbound else 0
  snapMax : s.snapMaxMass = if 0 ≤ s.mbound then snap else nullSnap
  isolation : s.snapIsolation = if s.rank = 0 then snap else nullSnap
  birth : s.snapBirth = snap
  sink : s.sinkTrackId = nullTrack ∧ s.snapSink = nullSnap
  bound : B s

abbrev Begins [LinearOrder K] [MassSum K] (par : Params K D) : Int → List Int → Sub K D → Prop :=
  BeginsOf (BoundMass par.mass) par

theorem updated_records [LinearOrder K] {snap : Int} {all : List (Sub K D)} {s s' : Sub K D} (h : Updated snap all s s')
    (hid : s.trackId ≠ nullTrack) :
    s'.trackId = s.trackId ∧ s'.nbound = s.nbound ∧ s'.mbound = s.mbound ∧ s'.particles = s.particles ∧
    s'.snapDeath = s.snapDeath ∧ s'.snapBirth = s.snapBirth ∧ s'.snapSink = s.snapSink ∧
    s'.sinkTrackId = sinkAfter snap all s ∧
    s'.lastMaxMass = (if s.lastMaxMass ≤ s.mbound then s.mbound else s.lastMaxMass) ∧
    s'.snapMaxMass = (if s.lastMaxMass ≤ s.mbound then snap else s.snapMaxMass) ∧
    s'.snapIsolation = (if s'.rank = 0 then snap else s.snapIsolation) := by
  unfold Updated at h
  generalize s'.rank = k at h
  generalize s'.hostHaloId = a at h
  generalize s'.depth = b at h
  generalize s'.nested = c at h
  subst h
  simp only [updateTrack, if_neg (show (s.withRank k).trackId ≠ nullTrack from hid)]
  by_cases hk : k = 0 <;> by_cases hm : s.lastMaxMass ≤ s.mbound <;> simp [Sub.withRank, hk, hm]

theorem updated_plain [LinearOrder K] {snap : Int} {all : List (Sub K D)} {s s' : Sub K D} (h : Updated snap all s s') :
    s'.nbound = s.nbound ∧ s'.particles = s.particles ∧ s'.snapSink = s.snapSink := by
  unfold Updated at h
  rw [h]
  unfold updateTrack
  dsimp only
  split_ifs <;> exact ⟨rfl, rfl, rfl⟩

theorem merging_mass [MassSum K] {on : Bool} {minNum : Nat} {mass : D → K} {snap : Int}
    {contains : Nat → Nat → Prop} {sunk : Nat → Nat → Bool} {before after : List (Sub K D)} {traps merges : Nat → Option Nat}
    {middle : Nat → List (Particle D)} (h : MergingCore on minNum mass snap contains sunk before after traps merges middle)
    {i : Nat} {s s' : Sub K D} (hs : before[i]? = some s) (hs' : after[i]? = some s') (hb : BoundMass mass s) :
    BoundMass mass s' := by
  cases hm : merges i with
  | some p => exact (h.away i p s s' hs hs' hm).2.2.2.2
  | none =>
    by_cases hj : ∃ j, merges j = some i
    · obtain ⟨j, hj⟩ := hj
      refine (h.grown i s s' j hs hs' hm hj).2.1.mass_ (Or.inl ?_)
      cases hbj : before[j]? with
      | none => rw [h.beyond j hbj] at hj; cases hj
      | some t =>
        have ht := ((h.merges_ j t hbj i).1 hj).2.2
        have hfree : t.sinkTrackId = nullTrack := by
          by_contra hne
          rw [h.old j t hbj hne] at ht
          cases ht
        have := h.found j t hbj hfree
        rw [ht] at this
        obtain ⟨_, ⟨w, hw, hr⟩, _⟩ := this
        rw [hs] at hw
        cases hw
        exact hr
    · obtain ⟨a1, a2, a3, a4⟩ := h.still i s s' hs hs' hm (fun j hj' => hj ⟨j, hj'⟩)
      unfold BoundMass at hb ⊢
      rw [a1, a2, a3]
      exact hb

/-- The history of each subhalo in one snapshot. -/
theorem snapshot_tracks [LinearOrder K] [MassSum K] [LE E] {Q P : Nat} {par : Params K D} (hpar : par.Ok)
    {prev : Fin Q → List (Sub K D)} (hsound : Sound prev) {d : Snapshot K D E P} (hx : InputsOk par prev d.toInputs) (hf : SnapCore par prev d)
    (ht : ∀ r, ∀ s ∈ prev r, Tidy par.cfg.minNum s) (hold : ∀ r, ∀ s ∈ prev r, s.snapSink < d.snap) :
    (∀ r, ∀ s ∈ d.out r, (∃ u ∈ everyone prev, ∃ v ∈ everyone d.refined, Continues par d.snap (allIds prev) u v s) ∨
      Begins par d.snap (allIds prev) s) ∧
    (∀ t ∈ allIds prev, t ∈ allIds d.out) ∧
    ((allIds d.refined).filter (fun t => decide (t ≠ nullTrack))).Perm (allIds prev) := by
  have hsnap : d.snap ≠ nullSnap := by
    have := hx.snap
    unfold nullSnap
    omega
  obtain ⟨⟨G, hG⟩, _, _⟩ := hsound
  have hlenM : ∀ r, (d.merged r).length = (d.old r).length + (d.new r).length := by
    intro r
    obtain ⟨_, _, _, hm⟩ := hf.merged_ r
    rw [hm.length, (hf.refined_ r).length, ← (hf.masked_ r).length_eq, (allFramed_iff.1 (hf.framed r)).1, List.length_append]
  have hlenR : ∀ r, (d.refined r).length = (d.old r).length + (d.new r).length := by
    intro r
    rw [(hf.refined_ r).length, ← (hf.masked_ r).length_eq, (allFramed_iff.1 (hf.framed r)).1, List.length_append]
  -- from the beginning of the snapshot to the state after merging
  have hmid : ∀ r (i : Nat) (m : Sub K D), (d.merged r)[i]? = some m → ∃ s0 v, (d.old r ++ d.new r)[i]? = some s0 ∧
      (d.refined r)[i]? = some v ∧ Judged par.cfg.minNum d.snap s0 v ∧ Judged par.cfg.minNum d.snap v m ∧
      ((m.sinkTrackId = s0.sinkTrackId ∧ m.snapSink = s0.snapSink) ∨ (m.sinkTrackId = nullTrack ∧ m.snapSink = nullSnap) ∨
        ∃ p : Nat, i < (d.old r).length ∧ p < (d.old r).length ∧ p ≠ i ∧ m.sinkTrackId = (p : Int) ∧ m.snapSink = d.snap) ∧
      ((1 < s0.nbound ∨ s0.particles.length ≤ 1) → BoundMass par.mass m) := by
    intro r i m hm
    obtain ⟨traps, merges, middle, hM⟩ := hf.merged_ r
    have hi : i < (d.refined r).length := by rw [← hM.length]; exact (List.getElem?_eq_some_iff.1 hm).1
    obtain ⟨m', hm', hsame, h1, h2⟩ := hM.each i _ (List.getElem?_eq_getElem hi)
    rw [hm] at hm'
    cases hm'
    have hi2 : i < (d.masked r).length := by rw [← (hf.refined_ r).length]; exact hi
    obtain ⟨v, hv, hr⟩ := (hf.refined_ r).each i _ (List.getElem?_eq_getElem hi2)
    rw [List.getElem?_eq_getElem hi] at hv
    obtain ⟨s1, hs1, ps, hps, hsub, _⟩ := forall₂_get' (hf.masked_ r) i _ (List.getElem?_eq_getElem hi2)
    obtain ⟨s0, hs0, hfr⟩ := forall₂_get' (hf.framed r) i s1 hs1
    cases hv
    set v := (d.refined r)[i] with hv
    have hvi : (d.refined r)[i]? = some v := List.getElem?_eq_getElem hi
    have hj := refinedSub_judged hpar.min hsnap hr
    have hd01 : (d.masked r)[i].trackId = s0.trackId ∧ (d.masked r)[i].hostHaloId = s0.hostHaloId ∧
        (d.masked r)[i].lastMaxMass = s0.lastMaxMass ∧ (d.masked r)[i].snapMaxMass = s0.snapMaxMass ∧
        (d.masked r)[i].snapIsolation = s0.snapIsolation ∧ (d.masked r)[i].snapBirth = s0.snapBirth ∧
        (d.masked r)[i].snapDeath = s0.snapDeath ∧ (d.masked r)[i].snapSink = s0.snapSink ∧
        (d.masked r)[i].sinkTrackId = s0.sinkTrackId ∧ (d.masked r)[i].nbound = s0.nbound := by
      rw [hps]
      unfold Framed at hfr
      rw [hfr]
      exact ⟨rfl, rfl, rfl, rfl, rfl, rfl, rfl, rfl, rfl, rfl⟩
    obtain ⟨e1, e2, e3, e4, e5, e6, e7, e8, e9, e10⟩ := hd01
    have htidy : ∀ s ∈ d.refined r, Tidy par.cfg.minNum s := by
      intro s hs
      obtain ⟨k, hk⟩ := List.getElem?_of_mem hs
      have hk2 : k < (d.masked r).length := by rw [← (hf.refined_ r).length]; exact (List.getElem?_eq_some_iff.1 hk).1
      obtain ⟨w, hw, hr'⟩ := (hf.refined_ r).each k _ (List.getElem?_eq_getElem hk2)
      rw [hk] at hw
      cases hw
      exact (refinedSub_judged hpar.min hsnap hr').tidy
    refine ⟨s0, v, hs0, hvi, ⟨by rw [hj.trackId, e1], by rw [hj.host, e2], by rw [hj.lastMax, e3], by rw [hj.snapMax, e4],
      by rw [hj.isolation, e5], by rw [hj.birth, e6], hj.tidy, by rw [hj.death, e7]⟩,
      merging_judged hpar.min hsnap hM htidy hvi hm, ?_, ?_⟩
    · cases htr : traps i with
      | none =>
        obtain ⟨a1, a2⟩ := h2 htr
        rw [a1, a2, hr.sink, hr.snapSink, e8, e9]
        by_cases hb : par.cfg.minNum ≤ v.nbound
        · rw [if_pos hb]
          by_cases hs : s0.sinkTrackId = nullTrack
          · left
            rw [if_neg (by rintro ⟨_, h'⟩; exact h' hs)]
            exact ⟨hs.symm, rfl⟩
          · right; left
            rw [if_pos ⟨hb, hs⟩]
            exact ⟨rfl, rfl⟩
        · left
          rw [if_neg hb, if_neg (by rintro ⟨h', _⟩; exact hb h')]
          exact ⟨rfl, rfl⟩
      | some p =>
        right; right
        have hfree : v.sinkTrackId = nullTrack := by
          by_contra hne
          rw [hM.old i v hvi hne] at htr
          cases htr
        have hfound := hM.found i v hvi hfree
        rw [htr] at hfound
        obtain ⟨g, hg, hp, hpi⟩ := contains_group (hf.layout r) hfound.1
        refine ⟨p, (hf.layout r).lt hg hpi, (hf.layout r).lt hg hp, ?_, (h1 p htr).1, (h1 p htr).2⟩
        rintro rfl
        exact contains_irrefl (hf.layout r) _ hfound.1
    · intro hb
      refine merging_mass hM hvi hm (hr.mass_ ?_)
      rcases hb with hb | hb
      · left
        unfold Resolved
        rw [e10]
        exact hb
      · right
        rw [hps]
        have h3 : s1.particles = s0.particles := by unfold Framed at hfr; rw [hfr]; rfl
        rw [h3] at hsub
        exact hsub.length_le.trans hb
  have hLold := linked_moved hG hx.arrival.moved
  obtain ⟨N, hN, hreg⟩ := hf.updated
  have hidsOld : (allIds d.old).Perm (allIds prev) := by
    rw [allIds_links, allIds_links]
    exact hx.arrival.moved.map _
  have holdnull : ∀ r, ∀ s ∈ d.old r, s.trackId ≠ nullTrack := by
    intro r s hs h0
    have := hLold.nonneg s.trackId (mem_allIds.2 ⟨r, s, hs, rfl⟩)
    rw [h0] at this
    unfold nullTrack at this
    omega
  refine ⟨?_, ?_, ?_⟩
  · intro r s hs
    obtain ⟨reg, hre, hupd⟩ := hreg r
    obtain ⟨i, hi⟩ := List.getElem?_of_mem hs
    obtain ⟨m, hm, hu⟩ := forall₂_get' hupd i s hi
    have htake : ∀ k, k < (d.old r).length → reg[k]? = (d.merged r)[k]? := by
      intro k hk
      rw [hre, List.getElem?_append_left (by rw [List.length_take, hlenM r]; omega), List.getElem?_take_of_lt hk]
    by_cases hio : i < (d.old r).length
    · -- an old track
      left
      rw [htake i hio] at hm
      obtain ⟨s0, v, hs0, hv, j1, j2, hsink, hbm⟩ := hmid r i m hm
      rw [List.getElem?_append_left hio] at hs0
      obtain ⟨u, hu0, hcar⟩ := forall₂_get' (hx.carried r) i s0 hs0
      have hup : u ∈ everyone prev := hx.moved.mem_iff.1 (mem_everyone.2 ⟨r, List.mem_of_getElem? hu0⟩)
      have hrest : s0.trackId = u.trackId ∧ s0.lastMaxMass = u.lastMaxMass ∧ s0.snapMaxMass = u.snapMaxMass ∧
          s0.snapIsolation = u.snapIsolation ∧ s0.snapBirth = u.snapBirth ∧ s0.snapDeath = u.snapDeath ∧
          s0.sinkTrackId = u.sinkTrackId ∧ s0.snapSink = u.snapSink := by
        rw [hcar.rest]
        exact ⟨rfl, rfl, rfl, rfl, rfl, rfl, rfl, rfl⟩
      obtain ⟨c1, c2, c3, c4, c5, c6, c7, c8⟩ := hrest
      have hmid0 : m.trackId ≠ nullTrack := by
        rw [j2.trackId, j1.trackId]
        exact holdnull r s0 (List.mem_of_getElem? hs0)
      obtain ⟨d1, d2, d3, d4, d5, d6, d7, d8, d9, d10, d11⟩ := updated_records hu.1 hmid0
      have hut := ht
      obtain ⟨r', hr'⟩ := mem_everyone.1 hup
      refine ⟨u, hup, v, mem_everyone.2 ⟨r, List.mem_of_getElem? hv⟩, ?_⟩
      refine ⟨by rw [d1, j2.trackId, j1.trackId, c1], by rw [j1.trackId, c1], j1.tidy, ?_, by rw [j1.death, c6], ?_, ?_, ?_, ?_, ?_, ?_, ?_⟩
      · have := j2.tidy
        refine ⟨?_, by rw [d2, d4]; exact this.le, by rw [d2, d4]; exact this.two⟩
        unfold Alive Resolved
        rw [d5, d2]
        exact this.alive
      · rw [d5, d2, j2.death]
      · rw [d9, d3, j2.lastMax, j1.lastMax, c2]
      · rw [d10, d3, j2.lastMax, j1.lastMax, c2, j2.snapMax, j1.snapMax, c3]
      · rw [d11, j2.isolation, j1.isolation, c4]
      · rw [d6, j2.birth, j1.birth, c5]
      · have hou := hold r' u hr'
        rw [d7, d8]
        unfold sinkAfter
        rcases hsink with ⟨a1, a2⟩ | ⟨a1, a2⟩ | ⟨p, _, hp, hpi, a1, a2⟩
        · left
          rw [if_neg (by rw [a2, c8]; omega), a1, a2, c7, c8]
          exact ⟨rfl, rfl⟩
        · right; left
          rw [if_neg (by rw [a2]; exact fun h' => hsnap h'.symm), a1, a2]
          exact ⟨rfl, rfl⟩
        · right; right
          have hpm : p < (d.merged r).length := by rw [hlenM r]; omega
          have hpr : reg[p]? = some (d.merged r)[p] := by rw [htake p hp, List.getElem?_eq_getElem hpm]
          obtain ⟨w0, w3, hw0, _, k1, k2, _⟩ := hmid r p _ (List.getElem?_eq_getElem hpm)
          rw [List.getElem?_append_left hp] at hw0
          rw [if_pos a2, a1, Int.toNat_natCast, trackAt_some hpr, k2.trackId, k1.trackId, a2]
          refine ⟨hidsOld.mem_iff.1 (mem_allIds.2 ⟨r, w0, List.mem_of_getElem? hw0, rfl⟩), ?_, rfl⟩
          rw [d1, j2.trackId, j1.trackId]
          intro heq
          exact hpi (allIds_inj hLold.nodup hw0 hs0 heq).2
      · intro hc
        have hsingle : 1 < s0.nbound ∨ s0.particles.length ≤ 1 := by
          have htu := ht r' u hr'
          rcases hcar.content with h | h | h
          · rcases htu.two with h3 | h3 <;> [left; skip]
            · have := hpar.min; omega
            · right; omega
          · omega
          · rw [hc] at h
            exact absurd h.1 (by simp)
        have := hbm hsingle
        unfold BoundMass at this ⊢
        rw [d2, d3, d4]
        exact this
    · -- a new track
      right
      have htl : ((d.merged r).take (d.old r).length).length = (d.old r).length := by rw [List.length_take, hlenM r]; omega
      rw [hre, List.getElem?_append_right (by rw [htl]; omega)] at hm
      obtain ⟨x4, hx4, rfl⟩ := numbered_get _ _ _ _ hm
      have hx4' := List.mem_filter.1 (List.mem_of_getElem? hx4)
      have hxr : 1 < x4.nbound := by simpa using hx4'.2
      obtain ⟨k, hk⟩ := List.getElem?_of_mem hx4'.1
      rw [List.getElem?_drop] at hk
      obtain ⟨s0, v, hs0, hv, j1, j2, hsink, hbm⟩ := hmid r _ x4 hk
      rw [List.getElem?_append_right (by omega)] at hs0
      have hb := hx.born r s0 (List.mem_of_getElem? hs0)
      obtain ⟨b1, b2, b3, b4, b5, b6, b7, b8⟩ := hb
      generalize htdef : ((N + birthsBefore d.merged (fun r => (d.new r).length) r : Nat) : Int) +
        ((i - ((d.merged r).take (d.old r).length).length : Nat) : Int) = t at hu
      have htN : (N : Int) ≤ t := by rw [← htdef]; push_cast; omega
      have hids : (withId x4 t).trackId = t := rfl
      obtain ⟨d1, d2, d3, d4, d5, d6, d7, d8, d9, d10, d11⟩ := updated_records hu.1 (by
        rw [hids]; unfold nullTrack; omega)
      have d1' : s.trackId = t := d1
      have d2' : s.nbound = x4.nbound := d2
      have d3' : s.mbound = x4.mbound := d3
      have d4' : s.particles = x4.particles := d4
      have hres : Resolved s := by unfold Resolved; omega
      refine ⟨?_, by omega, hres, ⟨⟨fun _ => hres, fun _ => ?_⟩, ?_, ?_⟩, ?_, ?_, ?_, ?_, ?_, ?_⟩
      · rw [d1', hN.mem_iff, List.mem_map]
        rintro ⟨j, hj, e⟩
        have := List.mem_range.1 hj
        omega
      · unfold Alive
        rw [d5]
        exact j2.tidy.alive.2 hxr
      · rw [d2', d4']; exact j2.tidy.le
      · rw [d2', d4']; exact j2.tidy.two
      · have e1 : (withId x4 t).lastMaxMass = 0 := by
          change x4.lastMaxMass = 0
          rw [j2.lastMax, j1.lastMax, b2]
        rw [d9, e1, d3]
      · have e1 : (withId x4 t).lastMaxMass = 0 := by
          change x4.lastMaxMass = 0
          rw [j2.lastMax, j1.lastMax, b2]
        have e2 : (withId x4 t).snapMaxMass = nullSnap := by
          change x4.snapMaxMass = nullSnap
          rw [j2.snapMax, j1.snapMax, b3]
        rw [d10, e1, d3, e2]
      · have e2 : (withId x4 t).snapIsolation = nullSnap := by
          change x4.snapIsolation = nullSnap
          rw [j2.isolation, j1.isolation, b4]
        rw [d11, e2]
      · rw [d6]
        change x4.snapBirth = _
        rw [j2.birth, j1.birth, b5]
      · rw [d7, d8]
        unfold sinkAfter
        change (if x4.snapSink = d.snap then _ else x4.sinkTrackId) = _ ∧ x4.snapSink = _
        have hnn : x4.sinkTrackId = nullTrack ∧ x4.snapSink = nullSnap := by
          rcases hsink with ⟨a1, a2⟩ | h | ⟨p, hlt, _⟩
          · rw [a1, a2, b7, b8]; exact ⟨rfl, rfl⟩
          · exact h
          · omega
        rw [hnn.1, hnn.2, if_neg (fun h' => hsnap h'.symm)]
        exact ⟨rfl, rfl⟩
      · have := hbm (by omega)
        unfold BoundMass at this ⊢
        rw [d2', d3', d4']
        exact this
  · intro t ht'
    obtain ⟨r, s, hs, rfl⟩ := mem_allIds.1 (hidsOld.mem_iff.2 ht')
    obtain ⟨i, hi⟩ := List.getElem?_of_mem hs
    have hil := (List.getElem?_eq_some_iff.1 hi).1
    have him : i < (d.merged r).length := by rw [hlenM r]; omega
    obtain ⟨s0, v, hs0, _, j1, j2, _⟩ := hmid r i _ (List.getElem?_eq_getElem him)
    rw [List.getElem?_append_left hil, hi] at hs0
    cases hs0
    obtain ⟨reg, hre, hupd⟩ := hreg r
    have hreg' : reg[i]? = some (d.merged r)[i] := by
      rw [hre, List.getElem?_append_left (by rw [List.length_take]; omega), List.getElem?_take_of_lt hil, List.getElem?_eq_getElem him]
    obtain ⟨o, ho, hu⟩ := forall₂_get hupd i _ hreg'
    refine mem_allIds.2 ⟨r, o, List.mem_of_getElem? ho, ?_⟩
    rw [(updated_records hu.1 (by rw [j2.trackId, j1.trackId]; exact holdnull r s hs)).1, j2.trackId, j1.trackId]
  · refine List.Perm.trans (List.Perm.of_eq ?_) hidsOld
    have hper : ∀ r, (d.refined r).map Sub.trackId = (d.old r).map Sub.trackId ++ (d.new r).map Sub.trackId := by
      intro r
      rw [← List.map_append]
      apply List.ext_getElem?
      intro i
      rw [List.getElem?_map, List.getElem?_map]
      by_cases hi : i < (d.old r).length + (d.new r).length
      · have him : i < (d.merged r).length := by rw [hlenM r]; omega
        obtain ⟨s0, v, hs0, hv, j1, _⟩ := hmid r i _ (List.getElem?_eq_getElem him)
        rw [hs0, hv, Option.map_some, Option.map_some, j1.trackId]
      · rw [List.getElem?_eq_none (by rw [hlenR r]; omega), List.getElem?_eq_none (by rw [List.length_append]; omega)]
    unfold allIds
    rw [List.filter_flatten, List.map_ofFn]
    congr 2
    funext r
    simp only [Function.comp]
    rw [hper r, List.filter_append]
    rw [List.filter_eq_self.2 (by
      intro t ht'
      obtain ⟨s, hs, rfl⟩ := List.mem_map.1 ht'
      exact decide_eq_true (holdnull r s hs)), List.filter_eq_nil_iff.2 (by
      intro t ht'
      obtain ⟨s, hs, rfl⟩ := List.mem_map.1 ht'
      rw [(hx.arrival.born r s hs).1]
      decide), List.append_nil]

/-! ## All runs -/

theorem allIds_everyone {P : Nat} (st : Fin P → List (Sub K D)) : allIds st = (everyone st).map Sub.trackId := by
  unfold allIds everyone
  rw [List.map_flatten, List.map_ofFn]
  rfl

theorem filter_one {P : Nat} {st : Fin P → List (Sub K D)} {s : Sub K D} (hs : s ∈ everyone st) (h0 : s.trackId ≠ nullTrack)
    (hn : ((allIds st).filter (fun t => decide (t ≠ nullTrack))).Nodup) :
    (everyone st).filter (fun x => decide (x.trackId = s.trackId)) = [s] := by
  rw [allIds_everyone] at hn
  generalize everyone st = l at hs hn
  set f := l.filter (fun x => decide (x.trackId = s.trackId)) with hf
  have hsub : f.map Sub.trackId = (l.map Sub.trackId).filter (fun t => decide (t = s.trackId)) := by
    rw [hf, List.filter_map]
    rfl
  have hsub2 : (f.map Sub.trackId).Sublist ((l.map Sub.trackId).filter (fun t => decide (t ≠ nullTrack))) := by
    rw [hsub]
    refine List.monotone_filter_right _ ?_
    intro t ht
    have : t = s.trackId := by simpa using ht
    rw [this]
    exact decide_eq_true h0
  have hnd := hn.sublist hsub2
  have hall : ∀ t ∈ f.map Sub.trackId, t = s.trackId := by
    rw [hsub]
    intro t ht
    simpa using (List.mem_filter.1 ht).2
  have hmem : s ∈ f := List.mem_filter.2 ⟨hs, by simp⟩
  match f, hmem, hnd, hall with
  | [a], hmem, _, _ =>
    rw [List.mem_singleton] at hmem
    rw [hmem]
  | a :: b :: l', _, hnd, hall =>
    exfalso
    simp only [List.map_cons, List.nodup_cons, List.mem_cons] at hnd hall
    exact hnd.1 (Or.inl ((hall a.trackId (Or.inl rfl)).trans (hall b.trackId (Or.inr (Or.inl rfl))).symm))

theorem filter_none {P : Nat} {st : Fin P → List (Sub K D)} {t : Int} (ht : t ∉ allIds st) :
    (everyone st).filter (fun x => decide (x.trackId = t)) = [] := by
  rw [List.filter_eq_nil_iff]
  intro s hs
  rw [decide_eq_true_iff]
  rintro rfl
  rw [allIds_everyone] at ht
  exact ht (List.mem_map.2 ⟨s, hs, rfl⟩)

theorem visits_cons (x : Int × List (Sub K D)) (tr : List (Int × List (Sub K D))) (t : Int) :
    visits (x :: tr) t = (x.2.filter (fun s => decide (s.trackId = t))).map (fun s => (x.1, s)) ++ visits tr t := rfl

/-- The invariant of runs. -/
structure RunInvOf [LinearOrder K] [MassSum K] (B : Sub K D → Prop) (par : Params K D) (tr : List (Σ P, Snapshot K D E P)) : Prop where
  sound : Sound (latest tr).2
  tidy : ∀ r, ∀ s ∈ (latest tr).2 r, Tidy par.cfg.minNum s
  first : ∀ s ∈ everyone (latest tr).2, ∃ n rest rest', visits (ends tr) s.trackId = (n, s) :: rest ∧
    visits (checks tr) s.trackId = (n, s) :: rest'
  unseen : ∀ t, t ≠ nullTrack → t ∉ allIds (latest tr).2 → visits (ends tr) t = [] ∧ visits (checks tr) t = []
  always : ∀ t, t ≠ nullTrack → (visits (ends tr) t).map Prod.fst <+: (ends tr).map Prod.fst
  recs : (∀ s : Sub K D, B s → 0 ≤ s.mbound) → ∀ s ∈ everyone (latest tr).2, Recorded (visits (ends tr) s.trackId) s
  death : ∀ s ∈ everyone (latest tr).2, DeathMark (visits (checks tr) s.trackId) s
  sink : ∀ s ∈ everyone (latest tr).2, SinkMark (allIds (latest tr).2) (visits (ends tr) s.trackId) s
  bound : par.consumed = false → ∀ s ∈ everyone (latest tr).2, B s

abbrev RunInv [LinearOrder K] [MassSum K] (par : Params K D) : List (Σ P, Snapshot K D E P) → Prop :=
  RunInvOf (BoundMass par.mass) par

theorem RunInvOf.sinkOld [LinearOrder K] [MassSum K] {B : Sub K D → Prop} {par : Params K D} {tr : List (Σ P, Snapshot K D E P)} (h : RunInvOf B par tr)
    {n : Int} (h0 : 0 ≤ n) (hn : ∀ x ∈ tr, x.2.snap < n) (r : Fin (latest tr).1) (s : Sub K D) (hs : s ∈ (latest tr).2 r) : s.snapSink < n := by
  rcases h.sink s (mem_everyone.2 ⟨r, hs⟩) with ⟨_, h2⟩ | ⟨_, _, after, v, before, e, hv, _⟩
  · rw [h2]; unfold nullSnap; omega
  · rw [hv]
    have : v ∈ visits (ends tr) s.trackId := by rw [e]; simp
    unfold visits at this
    obtain ⟨x, hx, hvx⟩ := List.mem_flatMap.1 this
    obtain ⟨_, _, rfl⟩ := List.mem_map.1 hvx
    obtain ⟨d, hd, rfl⟩ := List.mem_map.1 hx
    exact hn d hd

theorem recorded_next [LinearOrder K] [MassSum K] {B : Sub K D → Prop} {par : Params K D} {snap : Int} {ids : List Int} {u v s : Sub K D}
    (h : ContinuesOf B par snap ids u v s) {vs : List (Int × Sub K D)} (hr : Recorded vs u) : Recorded ((snap, s) :: vs) s := by
  obtain ⟨after, w, before, e, h1, h2, h3, h4⟩ := hr.peak
  refine ⟨?_, ?_, ?_⟩
  · rw [h.lastMax, h.snapMax]
    by_cases hm : u.lastMaxMass ≤ s.mbound
    · rw [if_pos hm, if_pos hm]
      refine ⟨[], (snap, s), vs, rfl, rfl, rfl, ?_, fun x hx => (by cases hx)⟩
      intro x hx
      rcases List.mem_cons.1 hx with rfl | hx
      · exact le_refl _
      · exact (h3 x hx).trans (by rw [← h1]; exact hm)
    · rw [if_neg hm, if_neg hm]
      have hlt : s.mbound < w.2.mbound := by rw [← h1]; exact not_le.1 hm
      refine ⟨(snap, s) :: after, w, before, by rw [e]; rfl, h1, h2, ?_, ?_⟩
      · intro x hx
        rcases List.mem_cons.1 hx with rfl | hx
        · exact hlt.le
        · exact h3 x hx
      · intro x hx
        rcases List.mem_cons.1 hx with rfl | hx
        · exact hlt
        · exact h4 x hx
  · rw [h.isolation]
    by_cases hk : s.rank = 0
    · rw [if_pos hk]
      exact Or.inl ⟨[], (snap, s), vs, rfl, hk, rfl, fun x hx => (by cases hx)⟩
    · rw [if_neg hk]
      rcases hr.isolation with ⟨a, x, b, e', q1, q2, q3⟩ | ⟨q1, q2⟩
      · refine Or.inl ⟨(snap, s) :: a, x, b, by rw [e']; rfl, q1, q2, ?_⟩
        intro y hy
        rcases List.mem_cons.1 hy with rfl | hy
        · exact hk
        · exact q3 y hy
      · refine Or.inr ⟨?_, q2⟩
        intro y hy
        rcases List.mem_cons.1 hy with rfl | hy
        · exact hk
        · exact q1 y hy
  · rw [h.birth, ← hr.birth]
    cases vs with
    | nil => simp at e
    | cons y l => rw [List.getLast?_cons_cons]

theorem death_next [LinearOrder K] [MassSum K] {B : Sub K D → Prop} {par : Params K D} {snap : Int} {ids : List Int} {u v s : Sub K D}
    (h : ContinuesOf B par snap ids u v s) (hu : Tidy par.cfg.minNum u) {n : Int} {rest : List (Int × Sub K D)}
    (hd : DeathMark ((n, u) :: rest) u) : DeathMark ((snap, s) :: (snap, v) :: (n, u) :: rest) s := by
  refine ⟨fun hr => h.tidy.alive.2 hr, fun hr => ?_⟩
  have hr' : ¬ 1 < s.nbound := hr
  have hdeath := h.death
  rw [if_neg hr'] at hdeath
  by_cases hv : Resolved v
  · rw [if_pos (show v.snapDeath = nullSnap from h.tidy'.alive.2 hv)] at hdeath
    exact ⟨[], (snap, s), (snap, v), (n, u) :: rest, rfl, hdeath, (by
      intro w hw
      rw [List.nil_append, List.mem_singleton] at hw
      rw [hw]; exact hr), hv⟩
  · have hvn : v.snapDeath ≠ nullSnap := fun h' => hv (h.tidy'.alive.1 h')
    rw [if_neg hvn, h.death', if_neg (show ¬ 1 < v.nbound from hv)] at hdeath
    by_cases hur : Resolved u
    · rw [if_pos (show u.snapDeath = nullSnap from hu.alive.2 hur)] at hdeath
      refine ⟨[(snap, s)], (snap, v), (n, u), rest, rfl, hdeath, ?_, hur⟩
      intro w hw
      simp only [List.cons_append, List.nil_append, List.mem_cons, List.not_mem_nil, or_false] at hw
      rcases hw with rfl | rfl
      · exact hr
      · exact hv
    · have hun : u.snapDeath ≠ nullSnap := fun h' => hur (hu.alive.1 h')
      rw [if_neg hun] at hdeath
      obtain ⟨after, x, y, before, e, e1, e2, e3⟩ := hd.2 hur
      refine ⟨(snap, s) :: (snap, v) :: after, x, y, before, by rw [e]; rfl, by rw [hdeath, e1], ?_, e3⟩
      intro w hw
      simp only [List.cons_append, List.mem_cons] at hw
      rcases hw with rfl | rfl | hw
      · exact hr
      · exact hv
      · exact e2 w hw

theorem sink_next [LinearOrder K] [MassSum K] {B : Sub K D → Prop} {par : Params K D} {snap : Int} {ids ids' : List Int} {u v s : Sub K D}
    (h : ContinuesOf B par snap ids u v s) (hids : ∀ t ∈ ids, t ∈ ids') {vs : List (Int × Sub K D)}
    (hd : SinkMark ids vs u) : SinkMark ids' ((snap, s) :: vs) s := by
  rcases h.sink with ⟨h1, h2⟩ | h1 | ⟨h1, h2, h3⟩
  · rcases hd with ⟨q1, q2⟩ | ⟨q1, q2, after, w, before, e, q3, q4⟩
    · exact Or.inl ⟨by rw [h1, q1], by rw [h2, q2]⟩
    · refine Or.inr ⟨by rw [h1]; exact hids _ q1, by rw [h1, h.trackId]; exact q2, (snap, s) :: after, w, before, by rw [e]; rfl, by rw [h2, q3], ?_⟩
      intro x hx
      rcases List.mem_cons.1 hx with rfl | hx
      · exact ⟨rfl, rfl⟩
      · rw [h1, h2]; exact q4 x hx
  · exact Or.inl h1
  · refine Or.inr ⟨hids _ h1, h2, [], (snap, s), vs, rfl, h3, ?_⟩
    intro x hx
    rw [List.nil_append, List.mem_singleton] at hx
    rw [hx]
    exact ⟨rfl, rfl⟩

theorem runInv_start [LinearOrder K] [MassSum K] (B : Sub K D → Prop) (par : Params K D) :
    RunInvOf B par ([] : List (Σ P, Snapshot K D E P)) := by
  have hnil : everyone ((latest ([] : List (Σ P, Snapshot K D E P))).2) = [] := by
    rw [List.eq_nil_iff_forall_not_mem]
    intro s hs
    obtain ⟨r, hr⟩ := mem_everyone.1 hs
    cases hr
  refine ⟨sound_start, fun r s hs => (by cases hs), ?_, fun t _ _ => ⟨rfl, rfl⟩, fun t _ => List.nil_prefix, ?_, ?_, ?_, ?_⟩
  · rw [hnil]; intro s hs; cases hs
  · rw [hnil]; intro _ s hs; cases hs
  · rw [hnil]; intro s hs; cases hs
  · rw [hnil]; intro s hs; cases hs
  · rw [hnil]; intro _ s hs; cases hs

/-- The invariant is kept by a snapshot in which each track continues or begins. -/
theorem runInv_next [LinearOrder K] [MassSum K] {B : Sub K D → Prop} {par : Params K D} {tr : List (Σ P, Snapshot K D E P)}
    (ih : RunInvOf B par tr) {P : Nat} {d : Snapshot K D E P} (hsound : Sound d.out)
    (htr : ∀ r, ∀ s ∈ d.out r, (∃ u ∈ everyone (latest tr).2, ∃ v ∈ everyone d.refined,
      ContinuesOf B par d.snap (allIds (latest tr).2) u v s) ∨ BeginsOf B par d.snap (allIds (latest tr).2) s)
    (hkeep : ∀ t ∈ allIds (latest tr).2, t ∈ allIds d.out)
    (href : ((allIds d.refined).filter (fun t => decide (t ≠ nullTrack))).Perm (allIds (latest tr).2)) :
    RunInvOf B par (⟨P, d⟩ :: tr) := by
  have ⟨⟨G, hG⟩, _, _⟩ := hsound
  obtain ⟨⟨G0, hG0⟩, _, _⟩ := ih.sound
  have hout : ∀ s ∈ everyone d.out, s.trackId ≠ nullTrack ∧
      (everyone d.out).filter (fun x => decide (x.trackId = s.trackId)) = [s] := by
    intro s hs
    have hmem : s.trackId ∈ allIds d.out := by rw [allIds_everyone]; exact List.mem_map.2 ⟨s, hs, rfl⟩
    have h0 : s.trackId ≠ nullTrack := by
      have := hG.nonneg _ hmem
      unfold nullTrack
      omega
    exact ⟨h0, filter_one hs h0 (hG.nodup.filter _)⟩
  have hends : ∀ t, visits (ends (⟨P, d⟩ :: tr)) t =
      ((everyone d.out).filter (fun s => decide (s.trackId = t))).map (fun s => (d.snap, s)) ++ visits (ends tr) t := fun t => rfl
  have hchecks : ∀ t, visits (checks (⟨P, d⟩ :: tr)) t =
      ((everyone d.out).filter (fun s => decide (s.trackId = t))).map (fun s => (d.snap, s)) ++
      (((everyone d.refined).filter (fun s => decide (s.trackId = t))).map (fun s => (d.snap, s)) ++ visits (checks tr) t) := fun t => rfl
  have hcont : ∀ s ∈ everyone d.out, ∀ u v : Sub K D, v ∈ everyone d.refined →
      ContinuesOf B par d.snap (allIds (latest tr).2) u v s →
      visits (ends (⟨P, d⟩ :: tr)) s.trackId = (d.snap, s) :: visits (ends tr) u.trackId ∧
      visits (checks (⟨P, d⟩ :: tr)) s.trackId = (d.snap, s) :: (d.snap, v) :: visits (checks tr) u.trackId := by
    intro s hs u v hv hc
    obtain ⟨h0, h1⟩ := hout s hs
    rw [hends, hchecks, h1, ← hc.trackId]
    have hvt : v.trackId = s.trackId := by rw [hc.trackId', hc.trackId]
    have h2 := filter_one hv (by rw [hvt]; exact h0) (by rw [href.nodup_iff]; exact hG0.nodup)
    rw [hvt] at h2
    rw [h2]
    exact ⟨rfl, rfl⟩
  have hrefmem : ∀ t, t ≠ nullTrack → t ∈ allIds d.refined → t ∈ allIds (latest tr).2 := by
    intro t h0 ht
    exact href.mem_iff.1 (List.mem_filter.2 ⟨ht, decide_eq_true h0⟩)
  have hbeg : ∀ s ∈ everyone d.out, BeginsOf B par d.snap (allIds (latest tr).2) s →
      visits (ends (⟨P, d⟩ :: tr)) s.trackId = [(d.snap, s)] ∧ visits (checks (⟨P, d⟩ :: tr)) s.trackId = [(d.snap, s)] := by
    intro s hs hb
    obtain ⟨h0, h1⟩ := hout s hs
    obtain ⟨q1, q2⟩ := ih.unseen s.trackId h0 hb.trackId
    rw [hends, hchecks, h1, q1, q2, filter_none (fun h' => hb.trackId (hrefmem _ h0 h'))]
    exact ⟨rfl, rfl⟩
  have hcase : ∀ s ∈ everyone d.out, (∃ u ∈ everyone (latest tr).2, ∃ v ∈ everyone d.refined,
      ContinuesOf B par d.snap (allIds (latest tr).2) u v s) ∨ BeginsOf B par d.snap (allIds (latest tr).2) s := by
    intro s hs
    obtain ⟨r, hr⟩ := mem_everyone.1 hs
    exact htr r s hr
  refine ⟨hsound, ?_, ?_, ?_, ?_, ?_, ?_, ?_, ?_⟩
  · intro r s hs
    rcases htr r s hs with ⟨u, _, v, _, hc⟩ | hb
    · exact hc.tidy
    · exact hb.tidy
  · intro s hs
    rcases hcase s hs with ⟨u, hu, v, hv, hc⟩ | hb
    · obtain ⟨e1, e2⟩ := hcont s hs u v hv hc
      exact ⟨_, _, _, e1, e2⟩
    · obtain ⟨e1, e2⟩ := hbeg s hs hb
      exact ⟨_, _, _, e1, e2⟩
  · intro t h0 (ht : t ∉ allIds d.out)
    have hprev : t ∉ allIds (latest tr).2 := fun h' => ht (hkeep t h')
    obtain ⟨q1, q2⟩ := ih.unseen t h0 hprev
    rw [hends, hchecks, q1, q2, filter_none ht, filter_none (fun h' => hprev (hrefmem _ h0 h'))]
    exact ⟨rfl, rfl⟩
  · intro t h0
    rw [hends]
    by_cases ht : t ∈ allIds d.out
    · rw [allIds_everyone] at ht
      obtain ⟨s, hs, rfl⟩ := List.mem_map.1 ht
      rw [(hout s hs).2]
      exact List.prefix_cons_inj _ |>.2 (ih.always _ h0)
    · rw [filter_none ht, (ih.unseen t h0 (fun h' => ht (hkeep t h'))).1]
      exact List.nil_prefix
  · intro hpos s hs
    rcases hcase s hs with ⟨u, hu, v, hv, hc⟩ | hb
    · rw [(hcont s hs u v hv hc).1]
      exact recorded_next hc (ih.recs hpos u hu)
    · rw [(hbeg s hs hb).1]
      have hp := hpos s hb.bound
      refine ⟨⟨[], (d.snap, s), [], rfl, ?_, ?_, ?_, fun x hx => (by cases hx)⟩, ?_, ?_⟩
      · rw [hb.lastMax, if_pos hp]
      · rw [hb.snapMax, if_pos hp]
      · intro x hx
        rw [List.mem_singleton] at hx
        rw [hx]
      · rw [hb.isolation]
        by_cases hk : s.rank = 0
        · rw [if_pos hk]
          exact Or.inl ⟨[], (d.snap, s), [], rfl, hk, rfl, fun x hx => (by cases hx)⟩
        · rw [if_neg hk]
          refine Or.inr ⟨?_, rfl⟩
          intro x hx
          rw [List.mem_singleton] at hx
          rw [hx]
          exact hk
      · rw [hb.birth]; rfl
  · intro s hs
    rcases hcase s hs with ⟨u, hu, v, hv, hc⟩ | hb
    · obtain ⟨n, _, rest, _, e⟩ := ih.first u hu
      obtain ⟨r, hr⟩ := mem_everyone.1 hu
      rw [(hcont s hs u v hv hc).2, e]
      exact death_next hc (ih.tidy r u hr) (by rw [← e]; exact ih.death u hu)
    · exact ⟨fun _ => hb.tidy.alive.2 hb.resolved, fun h' => absurd hb.resolved h'⟩
  · intro s hs
    rcases hcase s hs with ⟨u, hu, v, hv, hc⟩ | hb
    · rw [(hcont s hs u v hv hc).1]
      exact sink_next hc hkeep (ih.sink u hu)
    · exact Or.inl hb.sink
  · intro hcn s hs
    rcases hcase s hs with ⟨u, hu, v, hv, hc⟩ | hb
    · exact hc.bound hcn
    · exact hb.bound

/-- The invariant holds for all runs. -/
theorem run_inv [LinearOrder K] [MassSum K] [LinearOrder E] [Zero E] {par : Params K D} (hpar : par.Ok)
    {tr : List (Σ P, Snapshot K D E P)} (h : Run par tr) : RunInv par tr := by
  induction h with
  | start => exact runInv_start _ par
  | @next tr P d _ ok later comp ih =>
    have hold := fun r s hs => ih.sinkOld ok.snap later r s hs
    obtain ⟨d', ed, comp', hf⟩ := snapshot_ok hpar ih.sound ok hold
    have : d' = d := computed_unique ed comp' comp
    subst this
    obtain ⟨htr, hkeep, href⟩ := snapshot_tracks hpar ih.sound ok hf.core ih.tidy hold
    exact runInv_next ih hf.sound htr hkeep href

/-- The facts about the latest snapshot of a run. -/
theorem run_facts [LinearOrder K] [MassSum K] [LinearOrder E] [Zero E] {P : Nat} {par : Params K D} (hpar : par.Ok)
    {tr : List (Σ P, Snapshot K D E P)} {d : Snapshot K D E P} (h : Run par (⟨P, d⟩ :: tr)) :
    SnapFacts par (latest tr).2 d ∧ InputsOk par (latest tr).2 d.toInputs ∧ RunInv par tr := by
  cases h with
  | next _ _ hr ok later comp =>
    have ih := run_inv hpar hr
    obtain ⟨d', ed, comp', hf⟩ := snapshot_ok hpar ih.sound ok (fun r s hs => ih.sinkOld ok.snap later r s hs)
    have : d' = d := computed_unique ed comp' comp
    subst this
    exact ⟨hf, ok, ih⟩

theorem merged_hosts [LinearOrder K] [MassSum K] {Q P : Nat} {par : Params K D} {prev : Fin Q → List (Sub K D)}
    {d : Snapshot K D E P} (hf : SnapFacts par prev d) (r : Fin P) :
    (d.merged r).map Sub.hostHaloId = (d.old r ++ d.new r).map Sub.hostHaloId := by
  obtain ⟨traps, merges, middle, hM⟩ := hf.merged_ r
  have hl1 := hM.length
  have hl2 := (hf.refined_ r).length
  have hl3 := (hf.masked_ r).length_eq
  have hl4 := (allFramed_iff.1 (hf.framed r)).1
  refine List.ext_getElem (by simp only [List.length_map]; omega) (fun i h1 h2 => ?_)
  simp only [List.length_map] at h1 h2
  rw [List.getElem_map, List.getElem_map]
  have hv : i < (d.refined r).length := by omega
  have hk : i < (d.masked r).length := by omega
  have hn : i < (d.nested r).1.length := by omega
  obtain ⟨m, hm, hsame, _⟩ := hM.each i _ (List.getElem?_eq_getElem hv)
  rw [List.getElem?_eq_getElem h1] at hm
  cases hm
  obtain ⟨v, hv', hr⟩ := (hf.refined_ r).each i _ (List.getElem?_eq_getElem hk)
  rw [List.getElem?_eq_getElem hv] at hv'
  cases hv'
  obtain ⟨k, hk', ps, hps, _⟩ := forall₂_get (hf.masked_ r) i _ (List.getElem?_eq_getElem hn)
  rw [List.getElem?_eq_getElem hk] at hk'
  cases hk'
  obtain ⟨n, hn', hfr⟩ := forall₂_get (hf.framed r) i _ (List.getElem?_eq_getElem h2)
  rw [List.getElem?_eq_getElem hn] at hn'
  cases hn'
  rw [hsame.host, hr.same.host, hps]
  simp only [Sub.withParticles_hostHaloId]
  rw [(framed_same hfr).2]

theorem located_same {haloIds : List Int} (hn : haloIds.Nodup) (hn' : (-1 : Int) ∉ haloIds) {s s' t t' : Sub K D} (hs : Located haloIds s s') (ht : Located haloIds t t') :
    (s'.hostHaloId = t'.hostHaloId ↔ s.hostHaloId = t.hostHaloId) ∧ (s'.hostHaloId ≠ -1 → ∃ h : Nat, s.hostHaloId = (h : Int) ∧ h < haloIds.length) := by
  have key : ∀ (h : Nat) (x : Int), haloIds[h]? = some x → x ≠ -1 := fun h x hx e => hn' (e ▸ List.mem_of_getElem? hx)
  constructor
  · rcases hs with ⟨a1, a2⟩ | ⟨h, a1, a2⟩ <;> rcases ht with ⟨b1, b2⟩ | ⟨k, b1, b2⟩
    · rw [a1, a2, b1, b2]
    · have := key _ _ b2
      rw [a1, a2, b1]
      exact ⟨fun e => absurd e.symm this, fun e => by omega⟩
    · have := key _ _ a2
      rw [b1, b2, a1]
      exact ⟨fun e => absurd e this, fun e => by omega⟩
    · rw [a1, b1]
      constructor
      · intro e
        rw [e] at a2
        have := (List.getElem?_inj (List.getElem?_eq_some_iff.1 a2).1 hn).1 (a2.trans b2.symm)
        rw [this]
      · intro e
        have : h = k := by omega
        subst this
        rw [a2] at b2
        exact Option.some.inj b2
  · intro hne
    rcases hs with ⟨_, a2⟩ | ⟨h, a1, a2⟩
    · exact absurd a2 hne
    · exact ⟨h, a1, (List.getElem?_eq_some_iff.1 a2).1⟩

/-! ## The properties -/

/-- C51. From every state of every run, for all inputs of a next snapshot (any distribution over the
processes, hosts, new subhaloes, energies, sink criteria and orders of parallel iterations), the
steps from nesting to the update of the tracks succeed (no undefined behaviour, no endless loop or
recursion), with one result. -/
theorem C51_never_fails [LinearOrder K] [MassSum K] [LinearOrder E] [Zero E] {P : Nat} {par : Params K D} (hpar : par.Ok)
    {tr : List (Σ P, Snapshot K D E P)} (h : Run par tr) (x : Inputs K D E P) (hx : InputsOk par (latest tr).2 x)
    (later : ∀ y ∈ tr, y.2.snap < x.snap) : ∃! d : Snapshot K D E P, d.toInputs = x ∧ Run par (⟨P, d⟩ :: tr) := by
  have ih := run_inv hpar h
  obtain ⟨d, ed, hc, _⟩ := snapshot_ok hpar ih.sound hx (fun r s hs => ih.sinkOld hx.snap later r s hs)
  refine ⟨d, ⟨ed, ?_⟩, ?_⟩
  · subst ed
    exact .next tr d h hx later hc
  · rintro d' ⟨ed', hr⟩
    cases hr with
    | next _ _ _ _ _ hc' => exact computed_unique (ed'.trans ed.symm) hc' hc

/-- C29 in runs. In every snapshot of every run, unbinding leaves of each subhalo of each process what it should:
`MinNumPartOfSub` or more bound particles or an orphan with its most bound particle, and the marks of
death and sink accordingly. -/
theorem C29_every_snapshot [LinearOrder K] [MassSum K] [LinearOrder E] [Zero E] {P : Nat} {par : Params K D} (hpar : par.Ok)
    {tr : List (Σ P, Snapshot K D E P)} {d : Snapshot K D E P} (h : Run par (⟨P, d⟩ :: tr)) (r : Fin P) :
    (d.refined r).length = (d.masked r).length ∧
    ∀ (i : Nat) (s : Sub K D), (d.masked r)[i]? = some s → ∃ s', (d.refined r)[i]? = some s' ∧
      RefinedSub par.cfg.minNum par.mass d.snap s s' :=
  have hf := (run_facts hpar h).1
  ⟨(hf.refined_ r).length, (hf.refined_ r).each⟩

/-- C29 in runs. At the end of every snapshot of every run, each subhalo has at least `MinNumPartOfSub`
bound particles, or it is an orphan: at most one particle, and this is the only one it holds; it is
alive exactly if it is resolved. If no particles are consumed, its mass is that of its bound
particles. -/
theorem C29_every_state [LinearOrder K] [MassSum K] [LinearOrder E] [Zero E] {par : Params K D} (hpar : par.Ok)
    {tr : List (Σ P, Snapshot K D E P)} (h : Run par tr) (s : Sub K D) (hs : s ∈ everyone (latest tr).2) :
    s.nbound ≤ s.particles.length ∧
    (par.cfg.minNum ≤ s.nbound ∨ (s.nbound ≤ 1 ∧ s.particles.length = s.nbound)) ∧
    (Alive s ↔ Resolved s) ∧ (par.consumed = false → BoundMass par.mass s) := by
  have ih := run_inv hpar h
  obtain ⟨r, hr⟩ := mem_everyone.1 hs
  have ht := ih.tidy r s hr
  exact ⟨ht.le, ht.two, ht.alive, fun hc => ih.bound hc s hs⟩

/-- C30. In every snapshot of every run without consumed particles, after unbinding: no particle is
bound twice in a resolved subhalo, or to two resolved subhaloes of the same host. -/
theorem C30_exclusive [LinearOrder K] [MassSum K] [LinearOrder E] [Zero E] {P : Nat} {par : Params K D} (hpar : par.Ok)
    (hc : par.consumed = false) {tr : List (Σ P, Snapshot K D E P)} {d : Snapshot K D E P} (h : Run par (⟨P, d⟩ :: tr)) (r : Fin P)
    (g : List Nat) (hg : g ∈ d.groups r) : ExclusiveBound g (d.refined r) := by
  obtain ⟨hf, ok, ih⟩ := run_facts hpar h
  have hn := (hf.layout r).nodup
  rw [List.nodup_flatten] at hn
  exact (hf.refined_ r).exclusive (orphans_single hpar.min ok hf ih.tidy hc r) g hg _ _ (hf.exclusive r g hg) (hn.1 g hg)

/-- C30. At the end of every snapshot of every run without consumed particles, on each process: two resolved
subhaloes with the same host share no bound particle, if merging is switched off or no subhalo of
this host was trapped in this snapshot. (Else see `C30_merging_shares`.) -/
theorem C30_exclusive_output [LinearOrder K] [MassSum K] [LinearOrder E] [Zero E] {P : Nat} {par : Params K D} (hpar : par.Ok)
    (hc : par.consumed = false) {tr : List (Σ P, Snapshot K D E P)} {d : Snapshot K D E P} (h : Run par (⟨P, d⟩ :: tr)) (r : Fin P)
    (i j : Nat) (s t : Sub K D) (hs : (d.out r)[i]? = some s) (ht : (d.out r)[j]? = some t) (hij : i ≠ j)
    (hhost : s.hostHaloId = t.hostHaloId) (hne : s.hostHaloId ≠ nullHalo)
    (hno : par.merging = false ∨ ∀ u ∈ d.out r, u.hostHaloId = s.hostHaloId → u.snapSink ≠ d.snap)
    (hrs : Resolved s) (hrt : Resolved t) : ∀ x ∈ boundIds s, x ∉ boundIds t := by
  obtain ⟨hf, ok, ih⟩ := run_facts hpar h
  obtain ⟨N, _, hup⟩ := hf.updated
  obtain ⟨reg, hreg, hU⟩ := hup r
  have hhosts := merged_hosts hf r
  obtain ⟨traps, merges, middle, hM⟩ := hf.merged_ r
  have hlenR : (d.refined r).length = (d.old r).length + (d.new r).length := by
    rw [(hf.refined_ r).length, ← (hf.masked_ r).length_eq, (allFramed_iff.1 (hf.framed r)).1, List.length_append]
  have hlenM : (d.merged r).length = (d.old r).length + (d.new r).length := by rw [hM.length, hlenR]
  have hhalos := ok.arrival.halos r
  -- hosts of what is registered
  have hregHosts : reg.map Sub.hostHaloId = (d.old r).map Sub.hostHaloId ++
      (resolved ((d.merged r).drop (d.old r).length)).map Sub.hostHaloId := by
    rw [hreg, List.map_append]
    congr 1
    · rw [List.map_take, hhosts, List.map_append, List.take_left' (by simp)]
    · unfold numbered
      apply List.ext_getElem? 
      intro k
      simp only [List.getElem?_map, List.getElem?_mapIdx, Option.map_map]
      rfl
  have hnewHosts : ((resolved ((d.merged r).drop (d.old r).length)).map Sub.hostHaloId).Sublist ((d.new r).map Sub.hostHaloId) := by
    have : ((d.merged r).drop (d.old r).length).map Sub.hostHaloId = (d.new r).map Sub.hostHaloId := by
      rw [List.map_drop, hhosts, List.map_append, List.drop_left' (by simp)]
    rw [← this]
    exact (List.filter_sublist).map _
  obtain ⟨a, ha, hua, hla⟩ := forall₂_get' hU i s hs
  obtain ⟨b, hb, hub, hlb⟩ := forall₂_get' hU j t ht
  have hab : a.hostHaloId = b.hostHaloId := (located_same hhalos.1 hhalos.2 hla hlb).1.1 hhost
  obtain ⟨hh, hah, hhl⟩ := (located_same hhalos.1 hhalos.2 hla hla).2 hne
  -- both are old
  have hold : ∀ (k k' : Nat) (u u' : Sub K D), reg[k]? = some u → reg[k']? = some u' → k ≠ k' → u.hostHaloId = u'.hostHaloId →
      k < (d.old r).length := by
    intro k k' u u' hu hu' hkk he
    by_contra hk
    have h1 : (reg.map Sub.hostHaloId)[k]? = some u.hostHaloId := by rw [List.getElem?_map, hu]; rfl
    have h2 : (reg.map Sub.hostHaloId)[k']? = some u.hostHaloId := by rw [List.getElem?_map, hu', he]; rfl
    rw [hregHosts] at h1 h2
    rw [List.getElem?_append_right (by simp; omega)] at h1
    have hm1 := hnewHosts.subset (List.mem_of_getElem? h1)
    obtain ⟨w, hw, hwe⟩ := List.mem_map.1 hm1
    by_cases hk' : k' < (d.old r).length
    · rw [List.getElem?_append_left (by simpa using hk'), List.getElem?_map] at h2
      obtain ⟨o, ho, hoe⟩ := Option.map_eq_some_iff.1 h2
      exact (ok.arrival.born r w hw).2.2.2.2.2 o (List.mem_of_getElem? ho) (by rw [hoe, hwe])
    · rw [List.getElem?_append_right (by simp; omega)] at h2
      have hn := hnewHosts.nodup (ok.arrival.bornHosts r)
      have := (List.getElem?_inj (List.getElem?_eq_some_iff.1 h1).1 hn).1 (h1.trans h2.symm)
      simp only [List.length_map] at this
      omega
  have hi := hold i j a b ha hb hij hab
  have hj := hold j i b a hb ha (Ne.symm hij) hab.symm
  have hregOld : ∀ k, k < (d.old r).length → reg[k]? = (d.merged r)[k]? := by
    intro k hk
    rw [hreg, List.getElem?_append_left (by rw [List.length_take]; omega), List.getElem?_take_of_lt hk]
  -- the group
  obtain ⟨g, hg⟩ : ∃ g, (d.groups r)[hh]? = some g := ⟨_, List.getElem?_eq_getElem (by rw [ok.arrival.ngroups r]; exact hhl)⟩
  have hgm := List.mem_of_getElem? hg
  have hmem : ∀ (k : Nat) (m : Sub K D), (d.merged r)[k]? = some m → k < (d.old r).length → (k ∈ g ↔ m.hostHaloId = (hh : Int)) := by
    intro k m hm hk
    have h1 : ((d.merged r).map Sub.hostHaloId)[k]? = some m.hostHaloId := by rw [List.getElem?_map, hm]; rfl
    rw [hhosts, List.map_append, List.getElem?_append_left (by simpa using hk), List.getElem?_map] at h1
    obtain ⟨o, ho, hoe⟩ := Option.map_eq_some_iff.1 h1
    rw [(ok.arrival.groups_ r hh g hg).mem_iff, mem_membersOf]
    constructor
    · rintro ⟨o', ho', he, _⟩
      rw [ho] at ho'
      cases ho'
      rw [← hoe, he]
    · intro he
      exact ⟨o, ho, by rw [hoe, he], Or.inl rfl⟩
  rw [hregOld i hi] at ha
  rw [hregOld j hj] at hb
  have hig : i ∈ g := (hmem i a ha hi).2 hah
  have hjg : j ∈ g := (hmem j b hb hj).2 (by rw [← hab]; exact hah)
  -- nobody in the group merges
  have hnone : ∀ k ∈ g, merges k = none := by
    intro k hk
    have hkl : k < (d.old r).length := (hf.layout r).lt hgm hk
    have hkR : k < (d.refined r).length := by omega
    by_contra hcon
    obtain ⟨p, hp⟩ := Option.ne_none_iff_exists'.1 hcon
    obtain ⟨on, _, htr⟩ := (hM.merges_ k _ (List.getElem?_eq_getElem hkR) p).1 hp
    rcases hno with hoff | hno
    · rw [hoff] at on
      cases on
    · obtain ⟨m, hm, _, hrec, _⟩ := hM.each k _ (List.getElem?_eq_getElem hkR)
      have hsn := (hrec p htr).2
      have hmr : reg[k]? = some m := by rw [hregOld k hkl]; exact hm
      obtain ⟨o, ho, huo, hlo⟩ := forall₂_get hU k m hmr
      have hmh : m.hostHaloId = a.hostHaloId := by rw [(hmem k m hm hkl).1 hk, hah]
      refine hno o (List.mem_of_getElem? ho) ((located_same hhalos.1 hhalos.2 hlo hla).1.2 hmh) ?_
      rw [(updated_plain huo).2.2]
      exact hsn
  have hcontent : ∀ (k : Nat) (m o : Sub K D), k ∈ g → (d.merged r)[k]? = some m → Updated d.snap reg m o →
      ∃ v, (d.refined r)[k]? = some v ∧ boundIds o = boundIds v ∧ (Resolved o → Resolved v) := by
    intro k m o hk hm huo
    have hkR : k < (d.refined r).length := by rw [← hM.length]; exact (List.getElem?_eq_some_iff.1 hm).1
    obtain ⟨e1, _, e3, _⟩ := hM.still k _ m (List.getElem?_eq_getElem hkR) hm (hnone k hk) (fun q hq => by
      have hqR : q < (d.refined r).length := by
        by_contra hcon
        have := hM.beyond q (List.getElem?_eq_none (by omega))
        rw [this] at hq
        cases hq
      obtain ⟨_, _, htr⟩ := (hM.merges_ q _ (List.getElem?_eq_getElem hqR) k).1 hq
      have hqs : (d.refined r)[q].sinkTrackId = nullTrack := by
        by_contra hcon
        rw [hM.old q _ (List.getElem?_eq_getElem hqR) hcon] at htr
        cases htr
      have hfound := hM.found q _ (List.getElem?_eq_getElem hqR) hqs
      rw [htr] at hfound
      obtain ⟨g', hg', hk', hq'⟩ := contains_group (hf.layout r) hfound.1
      have : g' = g := by
        obtain ⟨x, hx⟩ := List.getElem?_of_mem hg'
        by_contra hcon
        exact (hf.layout r).disjoint hx hg (fun e => hcon (by subst e; rw [hx] at hg; exact Option.some.inj hg)) hk' hk
      rw [this] at hq'
      rw [hnone q hq'] at hq
      cases hq)
    refine ⟨_, List.getElem?_eq_getElem hkR, ?_, ?_⟩
    · unfold boundIds
      rw [(updated_plain huo).1, (updated_plain huo).2.1, e1, e3]
    · unfold Resolved
      rw [(updated_plain huo).1]
      omega
  obtain ⟨v, hv, e1, e2⟩ := hcontent i a s hig ha hua
  obtain ⟨w, hw, e3, e4⟩ := hcontent j b t hjg hb hub
  rw [e1, e3]
  exact (C30_exclusive hpar hc h r g hgm).exclusive i hig j hjg hij v w hv hw (e2 hrs) (e4 hrt)

/-- C30. In every snapshot of every run: the bound particles of the members of a host after unbinding,
with some left over, are the source particles of these members before, so nothing is bound more often
than it was present. -/
theorem C30_conserved [LinearOrder K] [MassSum K] [LinearOrder E] [Zero E] {P : Nat} {par : Params K D} (hpar : par.Ok)
    {tr : List (Σ P, Snapshot K D E P)} {d : Snapshot K D E P} (h : Run par (⟨P, d⟩ :: tr)) (r : Fin P)
    (g : List Nat) (hg : g ∈ d.groups r) :
    ∃ left, (left ++ gather boundIds (d.refined r) g).Perm (gather sourceIds (d.masked r) g) :=
  ((run_facts hpar h).1.refined_ r).conserved g hg

/-- C32. In every snapshot of every run, `MergeSubhalos` does on each process what `Merging` says. -/
theorem C32_merging [LinearOrder K] [MassSum K] [LinearOrder E] [Zero E] {P : Nat} {par : Params K D} (hpar : par.Ok)
    {tr : List (Σ P, Snapshot K D E P)} {d : Snapshot K D E P} (h : Run par (⟨P, d⟩ :: tr)) (r : Fin P) :
    ∃ traps merges middle, Merging par.merging par.cfg.minNum par.mass d.snap (Contains (d.refined r) (d.groups r))
      (d.sunk r) (d.refined r) (d.merged r) traps merges middle :=
  (run_facts hpar h).1.merged_ r

/-- C32. After every snapshot of every run, each track has no sink (and no snapshot of sinking), or its
sink is another track that exists, recorded in the snapshot it names and unchanged since. -/
theorem C32_sink_record [LinearOrder K] [MassSum K] [LinearOrder E] [Zero E] {par : Params K D} (hpar : par.Ok)
    {tr : List (Σ P, Snapshot K D E P)} (h : Run par tr) (s : Sub K D) (hs : s ∈ everyone (latest tr).2) :
    SinkMark (allIds (latest tr).2) (visits (ends tr) s.trackId) s :=
  (run_inv hpar h).sink s hs

/-- C34. After every snapshot of every run with non-negative particle masses (and sums of them), the peak mass, isolation
and birth of each track are what they should be according to the states of the track at the ends of
all snapshots. -/
theorem C34_history [LinearOrder K] [MassSum K] [LinearOrder E] [Zero E]
    {par : Params K D} (hpar : par.Ok) (hsum : NonnegSums K) (hm : ∀ x, 0 ≤ par.mass x) {tr : List (Σ P, Snapshot K D E P)} (h : Run par tr)
 (s : Sub K D) (hs : s ∈ everyone (latest tr).2) : Recorded (visits (ends tr) s.trackId) s := by
  refine (run_inv hpar h).recs (fun u hu => ?_) s hs
  refine hsum _ _ (fun y hy => ?_) hu
  obtain ⟨p, _, rfl⟩ := List.mem_map.1 hy
  exact hm _

/-- C34. After every snapshot of every run, the death mark of each track is none if it is resolved, else
the snapshot in which it was first found unresolved since it was last resolved. -/
theorem C34_death [LinearOrder K] [MassSum K] [LinearOrder E] [Zero E] {par : Params K D} (hpar : par.Ok)
    {tr : List (Σ P, Snapshot K D E P)} (h : Run par tr) (s : Sub K D) (hs : s ∈ everyone (latest tr).2) :
    DeathMark (visits (checks tr) s.trackId) s :=
  (run_inv hpar h).death s hs

/-- C21 in runs: a track appears exactly once in each state from its birth on. -/
theorem C21_every_track_stays [LinearOrder K] [MassSum K] [LinearOrder E] [Zero E] {par : Params K D} (hpar : par.Ok)
    {tr : List (Σ P, Snapshot K D E P)} (h : Run par tr) (t : Int) (ht : 0 ≤ t) :
    (visits (ends tr) t).map Prod.fst <+: (ends tr).map Prod.fst :=
  (run_inv hpar h).always t (by unfold nullTrack; omega)

end HBT.Props
