import Verif.Lemmas.InclusiveMerge
import Verif.Lemmas.InclusiveUpdate
import Verif.Props.Run
/-!
# C68: whole runs of builds with inclusive masses

The runs of `Props/Run` with the steps of `Model/Inclusive`.
-/
namespace HBT.Props
open HBT HBT.Model HBT.Spec HBT.Spec.Forest
variable {K D E : Type}

/-- The states are those computed by the code built with `INCLUSIVE_MASS`; nothing is masked. `coord` are the most-bound coordinates before they are
written. -/
structure ComputedInclusive [LE K] [DecidableLE K] [MassSum K] [LT E] [DecidableLT E] [Zero E] {P : Nat} (coord : Sub K D → D)
    (par : Params K D) (d : Snapshot K D E P) : Prop where
  nest : nestSubhalos par.chunk par.sortKeys par.bsearch d.order d.groups d.field (fun r => d.old r ++ d.new r) = .ok d.nested
  mask : ∀ r, d.masked r = (d.nested r).1
  refine_ : ∀ r, refineInclusive par.cfg (d.env r) d.snap (d.each r) (d.masked r) = .ok (d.refined r)
  merge : ∀ r, mergeSubhalosInclusive par.cfg (d.env' r) par.mass par.merging (d.sunk r) d.snap ((d.refined r).length + 1) (d.mergeOrder r)
    (d.each r) (d.groups r) (d.nested r).2 (d.refined r) = .ok (d.merged r)
  update : updateTracksInclusive coord par.sortMass d.snap d.haloIds (fun r => (d.new r).length) (fun r => (d.nested r).2) d.merged = .ok d.out

/-- All runs; the latest snapshot comes first. -/
inductive RunInclusive [LinearOrder K] [MassSum K] [LinearOrder E] [Zero E] (coord : Sub K D → D) (par : Params K D) :
    List (Σ P, Snapshot K D E P) → Prop
  | start : RunInclusive coord par []
  | next (tr : List (Σ P, Snapshot K D E P)) {P : Nat} (d : Snapshot K D E P) (h : RunInclusive coord par tr)
      (ok : InputsOk par (latest tr).2 d.toInputs) (later : ∀ x ∈ tr, x.2.snap < d.snap) (comp : ComputedInclusive coord par d) :
      RunInclusive coord par (⟨P, d⟩ :: tr)

theorem inclusive_unique [LE K] [DecidableLE K] [MassSum K] [LT E] [DecidableLT E] [Zero E] {P : Nat} {coord : Sub K D → D}
    {par : Params K D} {d d' : Snapshot K D E P} (e : d.toInputs = d'.toInputs) (h : ComputedInclusive coord par d)
    (h' : ComputedInclusive coord par d') : d = d' := by
  obtain ⟨x, n, m, f, g, o⟩ := d
  obtain ⟨x', n', m', f', g', o'⟩ := d'
  simp only at e
  subst e
  have e1 : n = n' := by
    have := h.nest.symm.trans h'.nest
    simpa using this
  subst e1
  have e2 : m = m' := by
    funext r
    exact (h.mask r).trans (h'.mask r).symm
  subst e2
  have e3 : f = f' := by
    funext r
    have := (h.refine_ r).symm.trans (h'.refine_ r)
    simpa using this
  subst e3
  have e4 : g = g' := by
    funext r
    have := (h.merge r).symm.trans (h'.merge r)
    simpa using this
  subst e4
  have e5 : o = o' := by
    have := h.update.symm.trans h'.update
    simpa using this
  subst e5
  rfl

/-! ## What moving particles to the front keeps -/

theorem fronted_back {pre out : List (Sub K D)} (h : Fronted pre out) {i : Nat} {s' : Sub K D} (hs' : out[i]? = some s') :
    ∃ s, pre[i]? = some s ∧ s' = s.withParticles s'.particles ∧ s'.particles.Perm s.particles := by
  have hi : i < pre.length := by rw [← h.length]; exact (List.getElem?_eq_some_iff.1 hs').1
  obtain ⟨u, hu, h1, h2, _⟩ := h.each i _ (List.getElem?_eq_getElem hi)
  rw [hs'] at hu
  cases hu
  exact ⟨_, List.getElem?_eq_getElem hi, h1, h2⟩

theorem fronted_map {α : Type} {pre out : List (Sub K D)} (h : Fronted pre out) (f : Sub K D → α)
    (hf : ∀ (s : Sub K D) ps, f (s.withParticles ps) = f s) : out.map f = pre.map f := by
  apply List.ext_getElem?
  intro i
  rw [List.getElem?_map, List.getElem?_map]
  cases hs : out[i]? with
  | none =>
    rw [List.getElem?_eq_none_iff] at hs
    rw [List.getElem?_eq_none (by rw [← h.length]; exact hs)]
  | some s' =>
    obtain ⟨s, e, e', _⟩ := fronted_back h hs
    rw [e, Option.map_some, Option.map_some, e', hf]

theorem fronted_mem {pre out : List (Sub K D)} (h : Fronted pre out) {s : Sub K D} (hs : s ∈ pre) : ∃ s' ∈ out, s' = s.withParticles s'.particles := by
  obtain ⟨i, hi⟩ := List.getElem?_of_mem hs
  obtain ⟨s', h1, h2, _⟩ := h.each i s hi
  exact ⟨s', List.mem_of_getElem? h1, h2⟩

theorem fronted_hierarchy {pre out : List (Sub K D)} (h : Fronted pre out) (hh : Hierarchy pre) : Hierarchy out := by
  constructor
  · intro s' hs' hne
    obtain ⟨i, hi⟩ := List.getElem?_of_mem hs'
    obtain ⟨s, e, e', _⟩ := fronted_back h hi
    have hhost : s'.hostHaloId = s.hostHaloId := by rw [e']; rfl
    rw [hhost] at hne ⊢
    obtain ⟨c, f, h1, h2, h3, h4⟩ := hh.host s (List.mem_of_getElem? e) hne
    refine ⟨c, f, shows_congr _ ?_ h1, ?_, ?_, depths_congr _ _ ?_ h4⟩
    · rintro t _ l ⟨u, hu, rfl, rfl⟩
      obtain ⟨u', hu', e⟩ := fronted_mem h hu
      exact ⟨u', hu', by rw [e]; rfl, by rw [e]; rfl⟩
    · refine h2.trans (List.Perm.of_eq ?_)
      have hm := fronted_map h (fun u => (u.hostHaloId, u.trackId)) (fun _ _ => rfl)
      have key : ∀ l : List (Sub K D), (l.filter (fun u => decide (u.hostHaloId = s.hostHaloId))).map Sub.trackId =
          ((l.map (fun u => (u.hostHaloId, u.trackId))).filter (fun x => decide (x.1 = s.hostHaloId))).map Prod.snd := by
        intro l
        rw [List.filter_map, List.map_map]
        rfl
      rw [key, key, hm]
    · intro u' hu' hu
      obtain ⟨j, hj⟩ := List.getElem?_of_mem hu'
      obtain ⟨u, e, e', _⟩ := fronted_back h hj
      rw [e'] at hu ⊢
      exact h3 u (List.mem_of_getElem? e) hu
    · rintro t _ l ⟨u, hu, rfl, rfl⟩
      obtain ⟨u', hu', e⟩ := fronted_mem h hu
      exact ⟨u', hu', by rw [e]; rfl, by rw [e]; rfl⟩
  · intro s' hs' hf
    obtain ⟨i, hi⟩ := List.getElem?_of_mem hs'
    obtain ⟨s, e, e', _⟩ := fronted_back h hi
    rw [e'] at hf ⊢
    exact hh.field s (List.mem_of_getElem? e) hf

theorem fronted_ids {P : Nat} {pre out : Fin P → List (Sub K D)} (h : ∀ r, Fronted (pre r) (out r)) : allIds out = allIds pre := by
  unfold allIds
  congr 2
  funext r
  exact fronted_map (h r) Sub.trackId (fun _ _ => rfl)

theorem fronted_sound {P : Nat} {pre out : Fin P → List (Sub K D)} (h : ∀ r, Fronted (pre r) (out r)) (hs : Sound pre) : Sound out := by
  obtain ⟨⟨G, hG⟩, ⟨N, hN⟩, hH⟩ := hs
  refine ⟨⟨G, linked_moved hG (List.Perm.of_eq ?_)⟩, ⟨N, ?_⟩, fun r => fronted_hierarchy (h r) (hH r)⟩
  · unfold allLinks
    congr 2
    funext r
    exact fronted_map (h r) linkData (fun _ _ => rfl)
  · unfold Dense
    rw [fronted_ids h]
    exact hN

/-! ## One snapshot -/

/-- What is true of every snapshot; `pre` is the state before particles were moved to the front. -/
structure InclusiveFacts [LinearOrder K] [MassSum K] {Q P : Nat} (par : Params K D) (prev : Fin Q → List (Sub K D))
    (d : Snapshot K D E P) (pre : Fin P → List (Sub K D)) : Prop where
  core : SnapCore par prev { d with out := pre }
  own : ∀ r (i : Nat) (s s' : Sub K D), (d.masked r)[i]? = some s → (d.refined r)[i]? = some s' → ∃ w, w.Perm s.particles ∧ s'.particles <+: w
  merged_ : ∀ r, ∃ traps merges middle, MergingCore par.merging par.cfg.minNum par.mass d.snap (Contains (d.refined r) (d.groups r))
    (d.sunk r) (d.refined r) (d.merged r) traps merges middle ∧
    ∀ (i : Nat) (s : Sub K D), (d.refined r)[i]? = some s → merges i = none → middle i = s.particles
  sound : Sound pre
  fronted : ∀ r, Fronted (pre r) (d.out r)

/-- The steps of a snapshot succeed. -/
theorem inclusive_ok [LinearOrder K] [MassSum K] [LinearOrder E] [Zero E] {Q P : Nat} (coord : Sub K D → D) {par : Params K D} (hpar : par.Ok)
    {prev : Fin Q → List (Sub K D)} (hsound : Sound prev) {x : Inputs K D E P} (hx : InputsOk par prev x)
    (hold : ∀ r, ∀ s ∈ prev r, s.snapSink < x.snap) :
    ∃ d : Snapshot K D E P, d.toInputs = x ∧ ComputedInclusive coord par d ∧ ∃ pre, InclusiveFacts par prev d pre := by
  obtain ⟨⟨G, hG⟩, ⟨N, hN⟩, _⟩ := hsound
  have hsnap : x.snap ≠ nullSnap := by
    have := hx.snap
    unfold nullSnap
    omega
  obtain ⟨nested, en, hn⟩ := nest_step par.chunk hpar.chunk hpar.keys hpar.search hx.arrival hG
  have hlay := layout_step par.chunk hpar.chunk hpar.keys hpar.search hx.arrival hG en
  have hlen : ∀ r, (nested r).1.length = (x.old r).length + (x.new r).length := fun r => by
    rw [(allFramed_iff.1 (hlay r).1).1, List.length_append]
  have hmf : ∀ r, List.Forall₂ (fun s s' : Sub K D => ∃ ps, s' = s.withParticles ps ∧ ps.Sublist s.particles ∧
        (¬ Resolved s → ps = s.particles)) (nested r).1 (nested r).1 := fun r =>
    List.forall₂_same.2 (fun s _ => ⟨s.particles, rfl, List.Sublist.refl _, fun _ => rfl⟩)
  have hf : ∀ r, ∃ refined, refineInclusive par.cfg (x.env r) x.snap (x.each r) (nested r).1 = .ok refined ∧
      refined.length = (nested r).1.length ∧ ∀ (i : Nat) (s : Sub K D), (nested r).1[i]? = some s → ∃ s', refined[i]? = some s' ∧
        RefinedSub par.cfg.minNum par.mass x.snap s s' ∧ ∃ w, w.Perm s.particles ∧ s'.particles <+: w := by
    intro r
    obtain ⟨out, e, h1, h2⟩ := refineInclusive_ok (env := x.env r) ⟨fun i => (hx.env r i).1, hpar.prec, hpar.min⟩ hpar.relax x.snap
      (subs := (nested r).1) (each := x.each r) (by rw [hlen r]; exact hx.each r)
    refine ⟨out, e, h1, fun i s hs => ?_⟩
    have := h2 i s hs
    rw [(hx.env r i).2] at this
    exact this
  choose refined ef hlf hef using hf
  have hlenf : ∀ r, (refined r).length = (x.old r).length + (x.new r).length := fun r => by rw [hlf r, hlen r]
  have hfs : ∀ r, RefinedEach par.cfg (fun _ => par.mass) x.snap (nested r).1 (refined r) := fun r =>
    ⟨hlf r, fun i s hs => by
      obtain ⟨s', h1, h2, _⟩ := hef r i s hs
      exact ⟨s', h1, h2⟩⟩
  have hback : ∀ r (i : Nat) (s' : Sub K D), (refined r)[i]? = some s' → ∃ s, (nested r).1[i]? = some s ∧
      RefinedSub par.cfg.minNum par.mass x.snap s s' := by
    intro r i s' hs'
    have hi : i < (nested r).1.length := by rw [← hlf r]; exact (List.getElem?_eq_some_iff.1 hs').1
    obtain ⟨u, hu, hr⟩ := (hfs r).each i _ (List.getElem?_eq_getElem hi)
    rw [hs'] at hu
    cases hu
    exact ⟨_, List.getElem?_eq_getElem hi, hr⟩
  have hfl : ∀ r, Layout (refined r) (x.old r).length (x.groups r) (nested r).2 (x.field r) := by
    intro r
    refine (hlay r).2.congr ?_
    rw [List.forall₂_iff_get]
    refine ⟨(hlf r).symm, fun i h1 h2 => ?_⟩
    simp only [List.get_eq_getElem]
    obtain ⟨s, hs, hr⟩ := hback r i _ (List.getElem?_eq_getElem h2)
    rw [List.getElem?_eq_getElem h1] at hs
    cases hs
    exact ⟨hr.same.rank, hr.same.nested⟩
  have hg : ∀ r, ∃ merged traps merges middle, mergeSubhalosInclusive par.cfg (x.env' r) par.mass par.merging (x.sunk r) x.snap
      ((refined r).length + 1) (x.mergeOrder r) (x.each r) (x.groups r) (nested r).2 (refined r) = .ok merged ∧
      MergingCore par.merging par.cfg.minNum par.mass x.snap (Contains (refined r) (x.groups r)) (x.sunk r) (refined r) merged
        traps merges middle ∧ ∀ (i : Nat) (s : Sub K D), (refined r)[i]? = some s → merges i = none → middle i = s.particles := by
    intro r
    refine mergeInclusive_snap (env := x.env' r) ⟨fun i => (hx.env' r i).1, hpar.prec, hpar.min⟩ hpar.relax par.mass
      (fun i => (hx.env' r i).2) par.merging (x.sunk r) (hfl r) ?_ (Nat.lt_succ_self _) (hx.mergeOrder r) (by
        rw [hlenf r]; exact hx.each r)
    intro s hs
    obtain ⟨i, hi⟩ := List.getElem?_of_mem hs
    obtain ⟨u, _, hr⟩ := hback r i s hi
    exact refinedSub_settled hpar.min hsnap hr
  choose merged traps merges middle eg hgs hmid using hg
  obtain ⟨hkept, hsink⟩ := merged_fits hx hold (fun r => (hlay r).1) hmf hfs hfl hgs
  obtain ⟨pre, reg, er, _, hs, hreg⟩ := update_step_full hpar.sort x.snap hx.arrival hG hN (fun r => (hn r).1) hkept hsink
  have hup : ∀ r, ∃ out, updateLocalInclusive coord par.sortMass x.snap (x.haloIds r) (nested r).2 (reg r) = .ok out ∧ Fronted (pre r) out :=
    fun r => updateLocalInclusive_ok coord (hx.arrival.halos r).1 (hx.arrival.halos r).2 (hreg r).2.2
  choose out eo hfront using hup
  refine ⟨⟨x, nested, fun r => (nested r).1, refined, merged, out⟩, rfl, ⟨en, fun _ => rfl, ef, eg, ?_⟩, pre,
    ⟨⟨fun r => (hlay r).1, hmf, hfs, hfl, fun r => ⟨_, _, _, hgs r⟩, N, hN, fun r => ⟨_, (hreg r).1, (hreg r).2.1⟩⟩, ?_,
      fun r => ⟨_, _, _, hgs r, hmid r⟩, hs, hfront⟩⟩
  · rw [updateTracksInclusive, er, Outcome.bind_ok]
    exact allRanks_ok _ out eo
  · intro r i s s' h1 h2
    obtain ⟨u, hu, _, hw⟩ := hef r i s h1
    rw [h2] at hu
    cases hu
    exact hw

/-! ## One track over one snapshot -/

theorem fronted_tidy {minNum : Nat} {s s' : Sub K D} (e : s' = s.withParticles s'.particles) (hp : s'.particles.Perm s.particles)
    (h : Tidy minNum s) : Tidy minNum s' := by
  have hl := hp.length_eq
  generalize s'.particles = ps at e hl
  subst e
  exact ⟨h.alive, hl ▸ h.le, hl ▸ h.two⟩

theorem fronted_mass [MassSum K] {mass : D → K} {s s' : Sub K D} (e : s' = s.withParticles s'.particles) (hp : s'.particles.Perm s.particles)
    (h : BoundMass mass s) : SomeMass mass s' := by
  refine ⟨s.particles, hp.symm, ?_⟩
  have h1 : s'.mbound = s.mbound := by rw [e]; rfl
  have h2 : s'.nbound = s.nbound := by rw [e]; rfl
  rw [h1, h2]
  exact h

/-- The history of each subhalo in one snapshot. -/
theorem inclusive_tracks [LinearOrder K] [MassSum K] [LE E] {Q P : Nat} {par : Params K D} (hpar : par.Ok)
    {prev : Fin Q → List (Sub K D)} (hsound : Sound prev) {d : Snapshot K D E P} (hx : InputsOk par prev d.toInputs)
    {pre : Fin P → List (Sub K D)} (hf : InclusiveFacts par prev d pre)
    (ht : ∀ r, ∀ s ∈ prev r, Tidy par.cfg.minNum s) (hold : ∀ r, ∀ s ∈ prev r, s.snapSink < d.snap) :
    (∀ r, ∀ s ∈ d.out r, (∃ u ∈ everyone prev, ∃ v ∈ everyone d.refined,
        ContinuesOf (SomeMass par.mass) par d.snap (allIds prev) u v s) ∨ BeginsOf (SomeMass par.mass) par d.snap (allIds prev) s) ∧
    (∀ t ∈ allIds prev, t ∈ allIds d.out) ∧
    ((allIds d.refined).filter (fun t => decide (t ≠ nullTrack))).Perm (allIds prev) := by
  obtain ⟨h1, h2, h3⟩ := snapshot_tracks hpar hsound (d := { d with out := pre }) hx hf.core ht hold
  refine ⟨?_, ?_, h3⟩
  · intro r s' hs'
    obtain ⟨i, hi⟩ := List.getElem?_of_mem hs'
    obtain ⟨s, hs, e, hp⟩ := fronted_back (hf.fronted r) hi
    have g : s'.trackId = s.trackId ∧ s'.nbound = s.nbound ∧ s'.mbound = s.mbound ∧ s'.rank = s.rank ∧ s'.snapDeath = s.snapDeath ∧
        s'.snapBirth = s.snapBirth ∧ s'.snapSink = s.snapSink ∧ s'.sinkTrackId = s.sinkTrackId ∧ s'.lastMaxMass = s.lastMaxMass ∧
        s'.snapMaxMass = s.snapMaxMass ∧ s'.snapIsolation = s.snapIsolation := by
      rw [e]
      exact ⟨rfl, rfl, rfl, rfl, rfl, rfl, rfl, rfl, rfl, rfl, rfl⟩
    obtain ⟨g1, g2, g3, g4, g5, g6, g7, g8, g9, g10, g11⟩ := g
    rcases h1 r s (List.mem_of_getElem? hs) with ⟨u, hu, v, hv, hc⟩ | hb
    · left
      refine ⟨u, hu, v, hv, ⟨by rw [g1]; exact hc.trackId, hc.trackId', hc.tidy', fronted_tidy e hp hc.tidy, hc.death', ?_, ?_, ?_, ?_, ?_, ?_,
        fun hcn => fronted_mass e hp (hc.bound hcn)⟩⟩
      · rw [g5, g2]; exact hc.death
      · rw [g9, g3]; exact hc.lastMax
      · rw [g10, g3]; exact hc.snapMax
      · rw [g11, g4]; exact hc.isolation
      · rw [g6]; exact hc.birth
      · rw [g1, g7, g8]; exact hc.sink
    · right
      refine ⟨by rw [g1]; exact hb.trackId, by rw [g1]; exact hb.nonneg, ?_, fronted_tidy e hp hb.tidy, ?_, ?_, ?_, ?_, ?_,
        fronted_mass e hp hb.bound⟩
      · unfold Resolved; rw [g2]; exact hb.resolved
      · rw [g9, g3]; exact hb.lastMax
      · rw [g10, g3]; exact hb.snapMax
      · rw [g11, g4]; exact hb.isolation
      · rw [g6]; exact hb.birth
      · rw [g7, g8]; exact hb.sink
  · intro t ht
    rw [fronted_ids hf.fronted]
    exact h2 t ht

/-! ## All runs -/

theorem inclusive_inv [LinearOrder K] [MassSum K] [LinearOrder E] [Zero E] {coord : Sub K D → D} {par : Params K D} (hpar : par.Ok)
    {tr : List (Σ P, Snapshot K D E P)} (h : RunInclusive coord par tr) : RunInvOf (SomeMass par.mass) par tr := by
  induction h with
  | start => exact runInv_start _ par
  | @next tr P d _ ok later comp ih =>
    have hold := fun r s hs => ih.sinkOld ok.snap later r s hs
    obtain ⟨d', ed, comp', pre, hf⟩ := inclusive_ok coord hpar ih.sound ok hold
    have : d' = d := inclusive_unique ed comp' comp
    subst this
    obtain ⟨htr, hkeep, href⟩ := inclusive_tracks hpar ih.sound ok hf ih.tidy hold
    exact runInv_next ih (fronted_sound hf.fronted hf.sound) htr hkeep href

theorem inclusive_facts [LinearOrder K] [MassSum K] [LinearOrder E] [Zero E] {P : Nat} {coord : Sub K D → D} {par : Params K D} (hpar : par.Ok)
    {tr : List (Σ P, Snapshot K D E P)} {d : Snapshot K D E P} (h : RunInclusive coord par (⟨P, d⟩ :: tr)) :
    (∃ pre, InclusiveFacts par (latest tr).2 d pre) ∧ InputsOk par (latest tr).2 d.toInputs ∧ ComputedInclusive coord par d ∧
      RunInvOf (SomeMass par.mass) par tr := by
  cases h with
  | next _ _ hr ok later comp =>
    have ih := inclusive_inv hpar hr
    obtain ⟨d', ed, comp', hf⟩ := inclusive_ok coord hpar ih.sound ok (fun r s hs => ih.sinkOld ok.snap later r s hs)
    have : d' = d := inclusive_unique ed comp' comp
    subst this
    exact ⟨hf, ok, comp, ih⟩

/-! ## The properties -/

/-- C68. From every state of every run, for all inputs of a next snapshot, the steps succeed with one result. -/
theorem C68_never_fails [LinearOrder K] [MassSum K] [LinearOrder E] [Zero E] {P : Nat} {coord : Sub K D → D} {par : Params K D} (hpar : par.Ok)
    {tr : List (Σ P, Snapshot K D E P)} (h : RunInclusive coord par tr) (x : Inputs K D E P) (hx : InputsOk par (latest tr).2 x)
    (later : ∀ y ∈ tr, y.2.snap < x.snap) : ∃! d : Snapshot K D E P, d.toInputs = x ∧ RunInclusive coord par (⟨P, d⟩ :: tr) := by
  have ih := inclusive_inv hpar h
  obtain ⟨d, ed, hc, _⟩ := inclusive_ok coord hpar ih.sound hx (fun r s hs => ih.sinkOld hx.snap later r s hs)
  refine ⟨d, ⟨ed, ?_⟩, ?_⟩
  · subst ed
    exact .next tr d h hx later hc
  · rintro d' ⟨ed', hr⟩
    cases hr with
    | next _ _ _ _ _ hc' => exact inclusive_unique (ed'.trans ed.symm) hc' hc

/-- C68. At the end of every snapshot of every run: track ids are `0, …, N-1`, each once; on each process the members of each host form a tree with the member of
rank 0 as root; each subhalo has `MinNumPartOfSub` or more bound particles, or is an orphan that holds no particle but this one; it is alive exactly if it is
resolved; and, if no particles are consumed, its mass is that of as many of its particles as are bound. -/
theorem C68_every_state [LinearOrder K] [MassSum K] [LinearOrder E] [Zero E] {coord : Sub K D → D} {par : Params K D} (hpar : par.Ok)
    {tr : List (Σ P, Snapshot K D E P)} (h : RunInclusive coord par tr) :
    (∃ N : Nat, (allIds (latest tr).2).Perm ((List.range N).map (fun i : Nat => (i : Int)))) ∧ (∀ r, Hierarchy ((latest tr).2 r)) ∧
    ∀ s ∈ everyone (latest tr).2, s.nbound ≤ s.particles.length ∧
      (par.cfg.minNum ≤ s.nbound ∨ (s.nbound ≤ 1 ∧ s.particles.length = s.nbound)) ∧
      (Alive s ↔ Resolved s) ∧ (par.consumed = false → SomeMass par.mass s) := by
  have ih := inclusive_inv hpar h
  obtain ⟨_, hN, hH⟩ := ih.sound
  refine ⟨hN, hH, fun s hs => ?_⟩
  obtain ⟨r, hr⟩ := mem_everyone.1 hs
  have ht := ih.tidy r s hr
  exact ⟨ht.le, ht.two, ht.alive, fun hc => ih.bound hc s hs⟩

/-- C68. In every snapshot of every run, unbinding starts from all particles of a subhalo (those of the subhaloes inside of it included), treats each subhalo
as if it were alone, whatever the order of the iterations, and leaves of it what it should. -/
theorem C68_unbound_alone [LinearOrder K] [MassSum K] [LinearOrder E] [Zero E] {P : Nat} {coord : Sub K D → D} {par : Params K D} (hpar : par.Ok)
    {tr : List (Σ P, Snapshot K D E P)} {d : Snapshot K D E P} (h : RunInclusive coord par (⟨P, d⟩ :: tr)) (r : Fin P) :
    (d.masked r).map Sub.particles = (d.old r ++ d.new r).map Sub.particles ∧ (d.refined r).length = (d.masked r).length ∧
    ∀ (i : Nat) (s : Sub K D), (d.masked r)[i]? = some s → ∃ w, unbindFull par.cfg (d.env r i) d.snap s = .ok w ∧
      (d.refined r)[i]? = some (truncateSource par.cfg w) ∧ RefinedSub par.cfg.minNum par.mass d.snap s (truncateSource par.cfg w) := by
  obtain ⟨⟨pre, hf⟩, hx, hc, _⟩ := inclusive_facts hpar h
  refine ⟨?_, (hf.core.refined_ r).length, ?_⟩
  · rw [hc.mask r]
    obtain ⟨h1, h2⟩ := allFramed_iff.1 (hf.core.framed r)
    refine List.ext_getElem? (fun i => ?_)
    rw [List.getElem?_map, List.getElem?_map]
    cases hs : (d.old r ++ d.new r)[i]? with
    | none =>
      rw [List.getElem?_eq_none_iff] at hs
      rw [List.getElem?_eq_none (by rw [h1]; exact hs)]
    | some s =>
      obtain ⟨s', e, hfr⟩ := h2 i s hs
      rw [e]
      unfold Framed at hfr
      rw [hfr]
      rfl
  · intro i s hs
    obtain ⟨w, e, _⟩ := unbound_refined (cfg := par.cfg) (env := d.env r) ⟨fun i => (hx.env r i).1, hpar.prec, hpar.min⟩ i d.snap s
    have hlen : (d.masked r).length = (d.old r).length + (d.new r).length := by
      rw [hc.mask r, (allFramed_iff.1 (hf.core.framed r)).1, List.length_append]
    have hE : (d.each r).Perm (List.range (d.masked r).length) := by rw [hlen]; exact hx.each r
    obtain ⟨out, eo, _, h2⟩ := runAll_each (act := refineAlone par.cfg (d.env r) d.snap) (st := d.masked r)
      (R := fun i s s' => ∃ w, unbindFull par.cfg (d.env r i) d.snap s = .ok w ∧ s' = truncateSource par.cfg w) hE (by
        intro i st s hs
        obtain ⟨w, e, _⟩ := unbound_refined (cfg := par.cfg) (env := d.env r) ⟨fun i => (hx.env r i).1, hpar.prec, hpar.min⟩ i d.snap s
        refine ⟨truncateSource par.cfg w, ?_, w, e, rfl⟩
        rw [refineAlone, get_some hs, Outcome.bind_ok, e, Outcome.bind_ok, Outcome.set_of_lt (List.getElem?_eq_some_iff.1 hs).1])
    have : out = d.refined r := by
      have := eo.symm.trans (hc.refine_ r)
      simpa using this
    subst this
    obtain ⟨s', hs', w', ew, rfl⟩ := h2 i s hs
    obtain ⟨s'', hs'', hr⟩ := (hf.core.refined_ r).each i s hs
    rw [hs'] at hs''
    cases hs''
    exact ⟨w', ew, hs', hr⟩

/-- C68. In every snapshot of every run, merging is as without inclusive masses (`C32_merging`), but a sink gets nothing: it is unbound again from the particles it
has. -/
theorem C68_merging [LinearOrder K] [MassSum K] [LinearOrder E] [Zero E] {P : Nat} {coord : Sub K D → D} {par : Params K D} (hpar : par.Ok)
    {tr : List (Σ P, Snapshot K D E P)} {d : Snapshot K D E P} (h : RunInclusive coord par (⟨P, d⟩ :: tr)) (r : Fin P) :
    ∃ traps merges middle, MergingCore par.merging par.cfg.minNum par.mass d.snap (Contains (d.refined r) (d.groups r))
      (d.sunk r) (d.refined r) (d.merged r) traps merges middle ∧
      ∀ (i : Nat) (s : Sub K D), (d.refined r)[i]? = some s → merges i = none → middle i = s.particles := by
  obtain ⟨⟨pre, hf⟩, _⟩ := inclusive_facts hpar h
  exact hf.merged_ r

theorem of_prefix {α : Type} {a w b : List α} (hw : w.Perm b) (h : a <+: w) : ∃ left, (a ++ left).Perm b := by
  obtain ⟨t, rfl⟩ := h
  exact ⟨t, hw⟩

/-- C68. In every snapshot of every run, the particles of a track at the end are particles it had at the beginning (after the haloes' particles were given to
their centrals), each at most as often: none is gained from or lost to another subhalo. -/
theorem C68_own_particles [LinearOrder K] [MassSum K] [LinearOrder E] [Zero E] {P : Nat} {coord : Sub K D → D} {par : Params K D} (hpar : par.Ok)
    {tr : List (Σ P, Snapshot K D E P)} {d : Snapshot K D E P} (h : RunInclusive coord par (⟨P, d⟩ :: tr)) (r : Fin P) (s : Sub K D)
    (hs : s ∈ d.out r) : ∃ u, (u ∈ d.old r ∧ u.trackId = s.trackId ∨ u ∈ d.new r ∧ s.snapBirth = d.snap) ∧
      ∃ left, (s.particles ++ left).Perm u.particles := by
  obtain ⟨⟨pre, hf⟩, hx, hc, ih⟩ := inclusive_facts hpar h
  have hlenF : (d.masked r).length = (d.old r).length + (d.new r).length := by
    rw [hc.mask r, (allFramed_iff.1 (hf.core.framed r)).1, List.length_append]
  -- up to merging
  have hmid : ∀ (i : Nat) (m : Sub K D), (d.merged r)[i]? = some m → ∃ u, (d.old r ++ d.new r)[i]? = some u ∧ m.trackId = u.trackId ∧
      m.snapBirth = u.snapBirth ∧ ∃ left, (m.particles ++ left).Perm u.particles := by
    intro i m hm
    obtain ⟨traps, merges, middle, hM, hmi⟩ := hf.merged_ r
    have hi : i < (d.refined r).length := by rw [← hM.length]; exact (List.getElem?_eq_some_iff.1 hm).1
    obtain ⟨m', hm', hsame, _⟩ := hM.each i _ (List.getElem?_eq_getElem hi)
    rw [hm] at hm'
    cases hm'
    have hv : (d.refined r)[i]? = some (d.refined r)[i] := List.getElem?_eq_getElem hi
    have hi2 : i < (d.masked r).length := by rw [← (hf.core.refined_ r).length]; exact hi
    obtain ⟨k, hk⟩ : ∃ k, (d.masked r)[i]? = some k := ⟨_, List.getElem?_eq_getElem hi2⟩
    obtain ⟨v, hv', hr⟩ := (hf.core.refined_ r).each i _ hk
    obtain ⟨w, hw1, hw2⟩ := hf.own r i _ _ hk hv
    rw [hv] at hv'
    cases hv'
    obtain ⟨l1, hl1⟩ := of_prefix hw1 hw2
    have h2 : ∃ left, (m.particles ++ left).Perm (d.refined r)[i].particles := by
      cases hmg : merges i with
      | some p =>
        obtain ⟨_, hp, _⟩ := hM.away i p _ _ hv hm hmg
        rw [hp]
        exact ⟨_, List.Perm.of_eq (List.take_append_drop 1 _)⟩
      | none =>
        by_cases hj : ∃ j, merges j = some i
        · obtain ⟨j, hj⟩ := hj
          obtain ⟨_, _, w', hw', hpre⟩ := hM.grown i _ _ j hv hm hmg hj
          rw [hmi i _ hv hmg] at hw'
          exact of_prefix hw' hpre
        · obtain ⟨_, _, hp, _⟩ := hM.still i _ _ hv hm hmg (fun j e => hj ⟨j, e⟩)
          rw [hp]
          exact ⟨[], by rw [List.append_nil]⟩
    obtain ⟨l2, hl2⟩ := h2
    have hk' := hk
    rw [hc.mask r] at hk'
    obtain ⟨u, hu, hfr⟩ := forall₂_get' (hf.core.framed r) i _ hk'
    have e : k.particles = u.particles ∧ k.trackId = u.trackId ∧ k.snapBirth = u.snapBirth := by
      unfold Framed at hfr
      rw [hfr]
      exact ⟨rfl, rfl, rfl⟩
    refine ⟨u, hu, ?_, ?_, l2 ++ l1, ?_⟩
    · rw [hsame.trackId, hr.same.trackId, e.2.1]
    · rw [hsame.birth, hr.same.birth, e.2.2]
    · rw [← e.1, ← List.append_assoc]
      exact (hl2.append_right l1).trans hl1
  obtain ⟨i, hi⟩ := List.getElem?_of_mem hs
  obtain ⟨s1, hs1, e1, hp1⟩ := fronted_back (hf.fronted r) hi
  obtain ⟨N, _, hreg⟩ := hf.core.updated
  obtain ⟨reg, hre, hupd⟩ := hreg r
  dsimp only at hre hupd
  obtain ⟨m, hm, hu⟩ := forall₂_get' hupd i s1 hs1
  have hlenM : (d.merged r).length = (d.old r).length + (d.new r).length := by
    obtain ⟨_, _, _, hM, _⟩ := hf.merged_ r
    rw [hM.length, (hf.core.refined_ r).length, hlenF]
  have hpart : s.particles.Perm m.particles := by
    rw [← (updated_plain hu.1).2.1]
    exact hp1
  have hid : s.trackId = s1.trackId := by rw [e1]; rfl
  have hbirth : s.snapBirth = s1.snapBirth := by rw [e1]; rfl
  by_cases hio : i < (d.old r).length
  · rw [hre, List.getElem?_append_left (by rw [List.length_take, hlenM]; omega), List.getElem?_take_of_lt hio] at hm
    obtain ⟨u, hu', ht, hb, left, hl⟩ := hmid i m hm
    rw [List.getElem?_append_left hio] at hu'
    have hmem := List.mem_of_getElem? hu'
    have hnull : m.trackId ≠ nullTrack := by
      obtain ⟨⟨G, hG⟩, _, _⟩ := ih.sound
      have := (linked_moved hG hx.arrival.moved).nonneg u.trackId (mem_allIds.2 ⟨r, u, hmem, rfl⟩)
      rw [ht]
      unfold nullTrack
      omega
    refine ⟨u, Or.inl ⟨hmem, ?_⟩, left, (hpart.append_right left).trans hl⟩
    rw [hid, (updated_records hu.1 hnull).1, ht]
  · rw [hre, List.getElem?_append_right (by rw [List.length_take, hlenM]; omega), numbered, List.getElem?_mapIdx] at hm
    obtain ⟨x, hxm, rfl⟩ := Option.map_eq_some_iff.1 hm
    have hx1 : x ∈ (d.merged r).drop (d.old r).length := List.mem_of_mem_filter (List.mem_of_getElem? hxm)
    obtain ⟨k, hk⟩ := List.getElem?_of_mem hx1
    rw [List.getElem?_drop] at hk
    obtain ⟨u, hu', ht, hb, left, hl⟩ := hmid _ x hk
    rw [List.getElem?_append_right (by omega)] at hu'
    have hmem := List.mem_of_getElem? hu'
    refine ⟨u, Or.inr ⟨hmem, ?_⟩, left, (hpart.append_right left).trans hl⟩
    have hb' := (updated_records hu.1 (by
      change (_ : Int) ≠ nullTrack
      unfold withId nullTrack
      dsimp only
      omega)).2.2.2.2.2.1
    rw [hbirth, hb']
    change x.snapBirth = _
    rw [hb, (hx.born r u hmem).2.2.2.2.1]

/-- C68. At the end of every snapshot of every run, the particle at the front of a resolved subhalo in a host belongs to no smaller resolved subhalo of this host, if
any particle of the subhalo does not. -/
theorem C68_front [LinearOrder K] [MassSum K] [LinearOrder E] [Zero E] {P : Nat} {coord : Sub K D → D} {par : Params K D} (hpar : par.Ok)
    {tr : List (Σ P, Snapshot K D E P)} {d : Snapshot K D E P} (h : RunInclusive coord par (⟨P, d⟩ :: tr)) (r : Fin P) (s : Sub K D)
    (hs : s ∈ d.out r) (hres : Resolved s) (hhost : s.hostHaloId ≠ nullHalo) (hown : ∃ p ∈ s.particles, ¬ InSmaller (d.out r) s p.id) :
    ∃ p, s.particles.head? = some p ∧ ¬ InSmaller (d.out r) s p.id := by
  obtain ⟨⟨pre, hf⟩, _⟩ := inclusive_facts hpar h
  have hF := hf.fronted r
  obtain ⟨i, hi⟩ := List.getElem?_of_mem hs
  obtain ⟨s1, hs1, e1, hp1⟩ := fronted_back hF hi
  obtain ⟨u, hu, _, _, _, h4⟩ := hF.each i s1 hs1
  rw [hi] at hu
  cases hu
  have hr1 : Resolved s1 := by unfold Resolved at hres ⊢; rw [e1] at hres; exact hres
  have hh1 : s1.hostHaloId ≠ nullHalo := by rw [e1] at hhost; exact hhost
  obtain ⟨ids, hids, hcase⟩ := h4 hr1 hh1
  have hsm : ∀ x, x ∈ ids ↔ InSmaller (d.out r) s x := by
    intro x
    rw [hids x]
    have a1 : s.hostHaloId = s1.hostHaloId := by rw [e1]; rfl
    have a2 : s.rank = s1.rank := by rw [e1]; rfl
    unfold InSmaller
    rw [a1, a2]
    constructor
    · rintro ⟨t, ht, b1, b2, b3, p, hp, b4⟩
      obtain ⟨k, hk⟩ := List.getElem?_of_mem ht
      obtain ⟨t', hk', f1, f2, _⟩ := hF.each k t hk
      refine ⟨t', List.mem_of_getElem? hk', ?_, ?_, ?_, p, f2.mem_iff.2 hp, b4⟩
      · rw [f1]; exact b1
      · rw [f1]; exact b2
      · unfold Resolved; rw [f1]; exact b3
    · rintro ⟨t', ht, b1, b2, b3, p, hp, b4⟩
      obtain ⟨k, hk⟩ := List.getElem?_of_mem ht
      obtain ⟨t, hk', f1, f2⟩ := fronted_back hF hk
      refine ⟨t, List.mem_of_getElem? hk', ?_, ?_, ?_, p, f2.mem_iff.1 hp, b4⟩
      · rw [f1] at b1; exact b1
      · rw [f1] at b2; exact b2
      · unfold Resolved at b3 ⊢; rw [f1] at b3; exact b3
  simp only [← hsm] at hown ⊢
  rcases hcase with ⟨rfl, hno⟩ | ⟨j, hj, hex⟩
  · obtain ⟨p, hp, hpn⟩ := hown
    cases hl : s.particles with
    | nil => rw [hl] at hp; cases hp
    | cons a l =>
      refine ⟨a, rfl, ?_⟩
      by_contra ha
      -- some place after the front
      have hex : ∃ j, j ≠ 0 ∧ ∃ q, s.particles[j]? = some q ∧ q.id ∉ ids := by
        obtain ⟨k, hk⟩ := List.getElem?_of_mem hp
        refine ⟨k, ?_, p, hk, hpn⟩
        rintro rfl
        rw [hl] at hk
        cases hk
        exact hpn ha
      classical
      have hmin := Nat.find_spec hex
      refine hno (Nat.find hex) ⟨hmin.1, hmin.2, fun j' h0 hlt q hq => ?_⟩
      by_contra hn
      exact Nat.find_min hex hlt ⟨h0, q, hq, hn⟩
  · obtain ⟨_, ⟨p, hp, hpn⟩, _⟩ := hj
    refine ⟨p, ?_, hpn⟩
    rw [List.head?_eq_getElem?, hex.2.1, hp]

/-- C68. After every snapshot of every run with non-negative particle masses (and sums of them), the peak mass, isolation and birth of each track are what they should be according to
the states of the track at the ends of all snapshots. -/
theorem C68_history [LinearOrder K] [MassSum K] [LinearOrder E] [Zero E] {coord : Sub K D → D}
    {par : Params K D} (hpar : par.Ok) (hsum : NonnegSums K) (hm : ∀ x, 0 ≤ par.mass x) {tr : List (Σ P, Snapshot K D E P)} (h : RunInclusive coord par tr)
    (s : Sub K D) (hs : s ∈ everyone (latest tr).2) : Recorded (visits (ends tr) s.trackId) s := by
  refine (inclusive_inv hpar h).recs (fun u hu => ?_) s hs
  obtain ⟨ps, _, hu⟩ := hu
  refine hsum _ _ (fun y hy => ?_) hu
  obtain ⟨p, _, rfl⟩ := List.mem_map.1 hy
  exact hm _

/-- C68. After every snapshot of every run, the marks of each track: it is there in every state since its birth; its death mark is none if it is resolved, else the
snapshot in which it was first found unresolved since it was last resolved; it has no sink, or its sink is another track that exists, recorded in the
snapshot it names and unchanged since. -/
theorem C68_marks [LinearOrder K] [MassSum K] [LinearOrder E] [Zero E] {coord : Sub K D → D} {par : Params K D} (hpar : par.Ok)
    {tr : List (Σ P, Snapshot K D E P)} (h : RunInclusive coord par tr) (s : Sub K D) (hs : s ∈ everyone (latest tr).2) :
    (visits (ends tr) s.trackId).map Prod.fst <+: (ends tr).map Prod.fst ∧ DeathMark (visits (checks tr) s.trackId) s ∧
    SinkMark (allIds (latest tr).2) (visits (ends tr) s.trackId) s := by
  have ih := inclusive_inv hpar h
  refine ⟨ih.always s.trackId ?_, ih.death s hs, ih.sink s hs⟩
  obtain ⟨_, ⟨N, hN⟩, _⟩ := ih.sound
  have : s.trackId ∈ allIds (latest tr).2 := by rw [allIds_everyone]; exact List.mem_map_of_mem hs
  obtain ⟨k, _, hk⟩ := List.mem_map.1 (hN.mem_iff.1 this)
  unfold nullTrack
  omega

end HBT.Props
