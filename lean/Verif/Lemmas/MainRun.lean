import Verif.Lemmas.MainStep
/-!
# An iteration of the main loop is a snapshot of a run
-/
set_option linter.unusedSectionVars false
namespace HBT.MainLoop
open HBT HBT.Model HBT.Spec HBT.Props
variable {K D E S R : Type}

/-- Two subhaloes that differ at most in the data (not the ids) of their particles. -/
def SameButData (u v : Sub K D) : Prop := ∃ ps, v = u.withParticles ps ∧ ps.map Particle.id = u.particles.map Particle.id

theorem SameButData.refl (u : Sub K D) : SameButData u u := ⟨u.particles, rfl, rfl⟩

/-- The subhaloes `cur` are those of `prev`, possibly distributed over another number of processes, and possibly without particle
data. -/
def Resumed {Q P : Nat} (prev : Fin Q → List (Sub K D)) (cur : Fin P → List (Sub K D)) : Prop :=
  ∃ orig : Fin P → List (Sub K D), (everyone orig).Perm (everyone prev) ∧ ∀ r, List.Forall₂ SameButData (orig r) (cur r)

theorem Resumed.refl {P : Nat} (prev : Fin P → List (Sub K D)) : Resumed prev prev :=
  ⟨prev, List.Perm.refl _, fun _ => List.forall₂_same.2 (fun u _ => SameButData.refl u)⟩

theorem zip_of_forall₂ {α β : Type} {Rel : α → β → Prop} {l : List α} {m : List β} (h : List.Forall₂ Rel l m) :
    ∀ x ∈ l.zip m, Rel x.1 x.2 := by
  induction h with
  | nil => intro x hx; cases hx
  | cons h _ ih =>
    intro x hx
    rw [List.zip_cons_cons, List.mem_cons] at hx
    rcases hx with rfl | hx
    · exact h
    · exact ih x hx

theorem mem_zip_map {α β γ : Type} {f : β → γ} {l : List α} {m : List β} {u : α} {s : γ} (h : (u, s) ∈ l.zip (m.map f)) :
    ∃ v, (u, v) ∈ l.zip m ∧ s = f v := by
  rw [List.zip_map_right] at h
  obtain ⟨x, hx, e⟩ := List.mem_map.1 h
  cases e
  exact ⟨x.2, hx, rfl⟩

theorem carried_of [MassSum K] {b : Build K D S} {all : List (Particle D)} {u v t : Sub K D} {h : Int} (hu : u.nbound ≤ u.particles.length)
    (h1 : SameButData u v) (h2 : Fed (withHost (renew b all v) h) t) : Carried (!b.dmOnly) u t := by
  obtain ⟨ps, rfl, hps⟩ := h1
  have hl : ps.length = u.particles.length := by
    have := congrArg List.length hps
    simpa using this
  have hle := renew_le b all (u.withParticles ps) (by show u.nbound ≤ ps.length; omega)
  rcases h2 with rfl | ⟨qs, rfl⟩
  · refine ⟨rfl, ?_⟩
    change _ ≤ _ ∧ _ ≤ u.nbound ∧ _ ≤ ps.length ∧ (_ → _ = u.nbound ∧ _ = ps.length) ∧ (u.nbound = ps.length → _) at hle
    cases hd : b.dmOnly with
    | true =>
      obtain ⟨a1, a2⟩ := hle.2.2.2.1 hd
      refine Or.inl ⟨a1, ?_⟩
      rw [← hl]
      exact a2
    | false =>
      refine Or.inr (Or.inr ⟨rfl, hle.2.1, hle.1, ?_, ?_⟩)
      · rw [← hl]
        exact hle.2.2.1
      · rw [← hl]
        exact hle.2.2.2.2
  · exact ⟨rfl, Or.inr (Or.inl rfl)⟩

theorem carried_links {consumed : Bool} {u t : Sub K D} (h : Carried consumed u t) : linkData t = linkData u := by
  rw [h.rest]
  rfl

theorem links_perm {consumed : Bool} {Q P : Nat} {prev : Fin Q → List (Sub K D)} {moved old : Fin P → List (Sub K D)}
    (hp : (everyone moved).Perm (everyone prev)) (hc : ∀ r, List.Forall₂ (Carried consumed) (moved r) (old r)) :
    (allLinks old).Perm (allLinks prev) := by
  have e1 : ∀ {N : Nat} (st : Fin N → List (Sub K D)), allLinks st = (everyone st).map linkData := by
    intro N st
    unfold allLinks everyone
    rw [List.map_flatten, List.map_ofFn]
    rfl
  have e2 : allLinks old = allLinks moved := by
    unfold allLinks
    congr 2
    funext r
    have : ∀ {l m : List (Sub K D)}, List.Forall₂ (Carried consumed) l m → m.map linkData = l.map linkData := by
      intro l m h
      induction h with
      | nil => rfl
      | cons h _ ih => rw [List.map_cons, List.map_cons, ih, carried_links h]
    exact this (hc r)
  rw [e2, e1, e1]
  exact hp.map _

/-- What is true of the particles in a catalogue. -/
def Listed {P : Nat} (b : Build K D S) (ids : List Int) (w : SnapInput K D E S R P) (p : Particle D) : Prop :=
  p.id ∈ ids ∧ (p ∈ allParticles w.parts ∨ (b.fullGroups = true ∧ ∃ r, ∃ g ∈ w.halos r, p ∈ g.particles))

theorem iteration_step [LinearOrder K] [MassSum K] [Mul K] [LinearOrder R] [LinearOrder E] [Zero E] {Q P : Nat} {b : Build K D S}
    {ids : List Int} {w : SnapInput K D E S R P} (hb : BuildOk b) (hw : SnapInputOk b ids w) {prev : Fin Q → List (Sub K D)}
    {cur : Fin P → List (Sub K D)} (hres : Resumed prev cur) (hsound : Sound prev)
    (hle : ∀ r, ∀ s ∈ prev r, s.nbound ≤ s.particles.length) (hk : ∀ r, AllOf (fun p => Known b.dmOnly ids p.id) (cur r))
    (hsink : ∀ r, ∀ s ∈ prev r, s.snapSink < w.snap) :
    ∃ d : Snapshot K D E P, d.snap = w.snap ∧ InputsOk (params b) prev d.toInputs ∧ Computed (params b) d ∧ SnapFacts (params b) prev d ∧
      iteration b w cur = .ok d.out ∧ (∀ r, AllOf (Listed b ids w) (d.out r)) ∧
      (∀ r, d.env r = w.env r (d.masked r) ∧ d.env' r = w.env' r (d.refined r)) ∧
      ∃ halos, Groups b w halos ∧ ∀ r, d.haloIds r = (halos r).map (fun h => b.haloId h.shell) := by
  have hpar := params_ok hb
  obtain ⟨orig, horig, hsame⟩ := hres
  have hlo : ∀ r, ∀ u ∈ orig r, u.nbound ≤ u.particles.length := by
    intro r u hu
    obtain ⟨r', hr'⟩ := mem_everyone.1 (horig.mem_iff.1 (mem_everyone.2 ⟨r, hu⟩))
    exact hle r' u hr'
  have hlc : ∀ r, ∀ s ∈ cur r, s.nbound ≤ s.particles.length := by
    intro r s hs
    obtain ⟨i, hi⟩ := List.getElem?_of_mem hs
    have hil := (List.getElem?_eq_some_iff.1 hi).1
    have hol : i < (orig r).length := by rw [(hsame r).length_eq]; exact hil
    have h := (List.forall₂_iff_get.1 (hsame r)).2 i hol hil
    simp only [List.get_eq_getElem, (List.getElem?_eq_some_iff.1 hi).2] at h
    obtain ⟨ps, rfl, hps⟩ := h
    have := congrArg List.length hps
    rw [List.length_map, List.length_map] at this
    show (orig r)[i].nbound ≤ ps.length
    rw [this]
    exact hlo r _ (List.getElem_mem hol)
  obtain ⟨snap, ranges, eload, hload⟩ := placeParticles_ok hb hw
  obtain ⟨halos, ehalo, hnd, hnn, hhm, hgr⟩ := updateHalos_ok hb hw hload
  have esub := updateSubs_ok hload cur hlc hk
  have hsm : ∀ r, AllOf (· ∈ allParticles w.parts) ((cur r).map (renew b (allParticles w.parts))) := by
    intro r s hs p hp
    obtain ⟨v, hv, rfl⟩ := List.mem_map.1 hs
    exact fresh_mem hw.ids_ (hk r v hv) p hp
  obtain ⟨hosted, moved, ehost, hmoved, hplace⟩ := assign_ok hb hload halos orig
    (fun r => (cur r).map (renew b (allParticles w.parts))) (fun r => by rw [List.length_map, (hsame r).length_eq]) hsm
  have hhosted : ∀ r, ∀ t ∈ hosted r, ∃ (r0 : Fin P) (s : Sub K D) (h : Int), s ∈ (cur r0).map (renew b (allParticles w.parts)) ∧
      t = withHost s h ∧ -1 ≤ h ∧ h < (halos r).length ∧ (s.particles = [] → h = -1) := by
    intro r t ht
    obtain ⟨i, hi⟩ := List.getElem?_of_mem ht
    have hil := (List.getElem?_eq_some_iff.1 hi).1
    have h := (List.forall₂_iff_get.1 (hplace r)).2 i (by rw [(hplace r).length_eq]; exact hil) hil
    simp only [List.get_eq_getElem, (List.getElem?_eq_some_iff.1 hi).2] at h
    obtain ⟨r0, s, h', hz, e, rest⟩ := h
    exact ⟨r0, s, h', (List.of_mem_zip hz).2, e, rest⟩
  have hprep := fun r => prepareRank_ok hb hw r (Listed b ids w) (halos r) (hosted r)
    (by
      intro t ht
      obtain ⟨r0, s, h, _, rfl, h1, h2, h3⟩ := hhosted r t ht
      exact ⟨h1, h2, h3⟩)
    (by
      intro t ht p hp
      obtain ⟨r0, s, h, hs, rfl, _⟩ := hhosted r t ht
      have := hsm r0 s hs p hp
      exact ⟨hw.ids_.mem_iff.1 (List.mem_map_of_mem this), Or.inl this⟩)
    (fun h hh p hp => hhm r h hh p hp)
  choose p old new eprep hp using hprep
  have hcarried : ∀ r, List.Forall₂ (Carried (params b).consumed) (moved r) (old r) := by
    intro r
    have h1 := hplace r
    have h2 := (hp r).fed
    rw [List.forall₂_iff_get]
    refine ⟨by rw [h1.length_eq, h2.length_eq], fun i hi1 hi2 => ?_⟩
    have a1 := (List.forall₂_iff_get.1 h1).2 i hi1 (by rw [h2.length_eq]; exact hi2)
    have a2 := (List.forall₂_iff_get.1 h2).2 i (by rw [h2.length_eq]; exact hi2) hi2
    obtain ⟨r0, s, h, hz, e, _⟩ := a1
    rw [e] at a2
    obtain ⟨v, hv, rfl⟩ := mem_zip_map hz
    refine carried_of (hlo r0 _ (List.of_mem_zip hv).1) (zip_of_forall₂ (hsame r0) _ hv) a2
  -- the inputs
  let x : (Fin P → Nat → UnbindEnv K D E) → (Fin P → Nat → UnbindEnv K D E) → (Fin P → Nat → Nat → Bool) → Inputs K D E P := fun env env' sunk =>
    ⟨w.snap, moved, old, new, fun r => (halos r).map (fun h => b.haloId h.shell), fun r => (p r).groups, fun r => (p r).field,
      fun r => w.nestOrder r (List.range (old r ++ new r).length), fun r => w.maskOrder r (List.range (p r).groups.length),
      fun r => w.hostOrder r (List.range (p r).groups.length),
      fun r => w.loneOrder r ((p r).field ++ (List.range (new r).length).map ((old r).length + ·)),
      fun r => w.mergeOrder r (List.range (p r).groups.length), fun r => w.eachOrder r (List.range ((old r).length + (new r).length)),
      env, env', sunk⟩
  have hx : ∀ env env' sunk, (∀ r i, EnvOk (env r i) ∧ (env r i).mass = b.mass) → (∀ r i, EnvOk (env' r i) ∧ (env' r i).mass = b.mass) →
      InputsOk (params b) prev (x env env' sunk) := by
    intro env env' sunk he he'
    refine ⟨hw.snap, ⟨links_perm (hmoved.trans horig) hcarried, ?_, ?_, ?_, fun r => (hp r).groups_, fun r => (hp r).field_, ?_, fun r => (hp r).bornHosts,
      fun r => hw.nestOrder r _⟩, hmoved.trans horig, hcarried, ?_, fun r => hw.maskOrder r _, fun r => hw.hostOrder r _, fun r => hw.loneOrder r _,
      fun r => hw.mergeOrder r _, fun r => hw.eachOrder r _, he, he'⟩
    · intro r t ht
      obtain ⟨i, hi⟩ := List.getElem?_of_mem ht
      have hil := (List.getElem?_eq_some_iff.1 hi).1
      have h2 := (hp r).fed
      have hhl : i < (hosted r).length := by rw [h2.length_eq]; exact hil
      have a2 : Fed (hosted r)[i] (old r)[i] := (List.forall₂_iff_get.1 h2).2 i hhl hil
      have et : (old r)[i] = t := (List.getElem?_eq_some_iff.1 hi).2
      rw [et] at a2
      obtain ⟨r0, s, h, _, e, h1, h2, _⟩ := hhosted r _ (List.getElem_mem hhl)
      rw [a2.host, e]
      show -1 ≤ h ∧ h < (((halos r).map (fun h => b.haloId h.shell)).length : Int)
      rw [List.length_map]
      exact ⟨h1, h2⟩
    · intro r
      refine ⟨hnd r, fun hm => ?_⟩
      obtain ⟨h, hh, e⟩ := List.mem_map.1 hm
      exact hnn r h hh e
    · intro r
      show (p r).groups.length = ((halos r).map (fun h => b.haloId h.shell)).length
      rw [List.length_map]
      exact (hp r).ngroups
    · intro r s hs
      obtain ⟨h, ps, rfl, hlt, hne⟩ := (hp r).born s hs
      refine ⟨rfl, rfl, rfl, ?_, ?_, hne⟩
      · show (0 : Int) ≤ (h : Int)
        omega
      · show (h : Int) < (((halos r).map (fun h => b.haloId h.shell)).length : Int)
        rw [List.length_map]
        omega
    · intro r s hs
      obtain ⟨h, ps, rfl, _⟩ := (hp r).born s hs
      exact ⟨rfl, rfl, rfl, rfl, rfl, rfl, rfl, rfl⟩
  have hsome : ∀ r : Fin P, ∀ i, EnvOk (w.env r [] i) ∧ (w.env r [] i).mass = b.mass := fun r i => hw.env r [] i
  obtain ⟨d0, e0, c0, _⟩ := snapshot_ok hpar hsound (hx (fun r => w.env r []) (fun r => w.env r []) (fun _ _ _ => false) hsome hsome) hsink
  obtain ⟨d1, e1, c1, _⟩ := snapshot_ok hpar hsound (hx (fun r => w.env r (d0.masked r)) (fun r => w.env r []) (fun _ _ _ => false)
    (fun r i => hw.env r _ i) hsome) hsink
  obtain ⟨d, e, c, f⟩ := snapshot_ok hpar hsound (hx (fun r => w.env r (d0.masked r)) (fun r => w.env' r (d1.refined r)) (fun r => w.sunk r (d1.refined r))
    (fun r i => hw.env r _ i) (fun r i => hw.env' r _ i)) hsink
  have n0 : d.nested = d0.nested := by
    have a0 := c0.nest
    have a := c.nest
    rw [show d0.order = _ from congrArg Inputs.order e0, show d0.groups = _ from congrArg Inputs.groups e0,
      show d0.field = _ from congrArg Inputs.field e0, show d0.old = _ from congrArg Inputs.old e0,
      show d0.new = _ from congrArg Inputs.new e0] at a0
    rw [show d.order = _ from congrArg Inputs.order e, show d.groups = _ from congrArg Inputs.groups e,
      show d.field = _ from congrArg Inputs.field e, show d.old = _ from congrArg Inputs.old e,
      show d.new = _ from congrArg Inputs.new e] at a
    have := a.symm.trans a0
    simpa using this
  have n1 : d1.nested = d0.nested := by
    have a0 := c0.nest
    have a := c1.nest
    rw [show d0.order = _ from congrArg Inputs.order e0, show d0.groups = _ from congrArg Inputs.groups e0,
      show d0.field = _ from congrArg Inputs.field e0, show d0.old = _ from congrArg Inputs.old e0,
      show d0.new = _ from congrArg Inputs.new e0] at a0
    rw [show d1.order = _ from congrArg Inputs.order e1, show d1.groups = _ from congrArg Inputs.groups e1,
      show d1.field = _ from congrArg Inputs.field e1, show d1.old = _ from congrArg Inputs.old e1,
      show d1.new = _ from congrArg Inputs.new e1] at a
    have := a.symm.trans a0
    simpa using this
  have m0 : d.masked = d0.masked := by
    funext r
    have a0 := c0.mask r
    have a := c.mask r
    rw [show d0.maskOrder = _ from congrArg Inputs.maskOrder e0, show d0.groups = _ from congrArg Inputs.groups e0] at a0
    rw [show d.maskOrder = _ from congrArg Inputs.maskOrder e, show d.groups = _ from congrArg Inputs.groups e, n0] at a
    have := a.symm.trans a0
    simpa using this
  have m1 : d1.masked = d0.masked := by
    funext r
    have a0 := c0.mask r
    have a := c1.mask r
    rw [show d0.maskOrder = _ from congrArg Inputs.maskOrder e0, show d0.groups = _ from congrArg Inputs.groups e0] at a0
    rw [show d1.maskOrder = _ from congrArg Inputs.maskOrder e1, show d1.groups = _ from congrArg Inputs.groups e1, n1] at a
    have := a.symm.trans a0
    simpa using this
  have f1 : d.refined = d1.refined := by
    funext r
    have a1 := c1.refine_ r
    have a := c.refine_ r
    rw [show d1.env = _ from congrArg Inputs.env e1, show d1.snap = _ from congrArg Inputs.snap e1,
      show d1.hostOrder = _ from congrArg Inputs.hostOrder e1, show d1.lone = _ from congrArg Inputs.lone e1,
      show d1.groups = _ from congrArg Inputs.groups e1, m1, n1] at a1
    rw [show d.env = _ from congrArg Inputs.env e, show d.snap = _ from congrArg Inputs.snap e,
      show d.hostOrder = _ from congrArg Inputs.hostOrder e, show d.lone = _ from congrArg Inputs.lone e,
      show d.groups = _ from congrArg Inputs.groups e, m0, n0] at a
    have := a.symm.trans a1
    simpa using this
  have hlast : iteration b w cur = .ok d.out := by
    unfold iteration
    rw [eload, Outcome.bind_ok, ehalo, Outcome.bind_ok, esub, Outcome.bind_ok]
    unfold prepare
    rw [ehost, Outcome.bind_ok, allRanks_ok _ _ eprep, Outcome.bind_ok]
    unfold finish
    have en := c.nest
    rw [show d.order = _ from congrArg Inputs.order e, show d.groups = _ from congrArg Inputs.groups e,
      show d.field = _ from congrArg Inputs.field e, show d.old = _ from congrArg Inputs.old e,
      show d.new = _ from congrArg Inputs.new e] at en
    have esubs : (fun r => (p r).subs) = fun r => old r ++ new r := funext (fun r => (hp r).subs_)
    have en' : nestSubhalos b.nestChunk b.sortKeys b.bsearch (fun r => w.nestOrder r (List.range (p r).subs.length))
        (fun r => (p r).groups) (fun r => (p r).field) (fun r => (p r).subs) = .ok d.nested := by
      have : (fun r => w.nestOrder r (List.range (p r).subs.length)) = fun r => w.nestOrder r (List.range (old r ++ new r).length) := by
        funext r
        rw [(hp r).subs_]
      rw [this, esubs]
      exact en
    rw [en', Outcome.bind_ok]
    have em : ∀ r, maskSubhalos (d.nested r).1.length (w.maskOrder r (List.range (p r).groups.length)) (p r).groups (d.nested r).2
        (d.nested r).1 = .ok (d.masked r) := by
      intro r
      have := c.mask r
      rw [show d.maskOrder = _ from congrArg Inputs.maskOrder e, show d.groups = _ from congrArg Inputs.groups e] at this
      exact this
    rw [allRanks_ok _ _ em, Outcome.bind_ok]
    have er : ∀ r, refineMerge b w r (p r) (d.nested r).2 (d.masked r) = .ok (d.merged r) := by
      intro r
      have a := c.refine_ r
      have a' := c.merge r
      rw [show d.env = _ from congrArg Inputs.env e, show d.snap = _ from congrArg Inputs.snap e,
        show d.hostOrder = _ from congrArg Inputs.hostOrder e, show d.lone = _ from congrArg Inputs.lone e,
        show d.groups = _ from congrArg Inputs.groups e] at a
      rw [show d.env' = _ from congrArg Inputs.env' e, show d.snap = _ from congrArg Inputs.snap e,
        show d.sunk = _ from congrArg Inputs.sunk e, show d.mergeOrder = _ from congrArg Inputs.mergeOrder e,
        show d.each = _ from congrArg Inputs.each e, show d.groups = _ from congrArg Inputs.groups e] at a'
      unfold refineMerge
      rw [(hp r).nOld, (hp r).nBirth, m0]
      rw [m0] at a
      have a2 : refineParticles b.cfg (w.env r (d0.masked r)) w.snap (d0.masked r).length (w.hostOrder r (List.range (p r).groups.length))
        (w.loneOrder r ((p r).field ++ (List.range (new r).length).map ((old r).length + ·))) (p r).groups (d.nested r).2 (d0.masked r)
          = .ok (d.refined r) := a
      rw [a2, Outcome.bind_ok, f1]
      rw [f1] at a'
      exact a'
    rw [allRanks_ok _ _ er, Outcome.bind_ok]
    have eu := c.update
    rw [show d.snap = _ from congrArg Inputs.snap e, show d.haloIds = _ from congrArg Inputs.haloIds e,
      show d.new = _ from congrArg Inputs.new e] at eu
    have h1 : (fun r => (p r).halos.map (fun h => b.haloId h.shell)) = fun r => (halos r).map (fun h => b.haloId h.shell) := by
      funext r
      rw [(hp r).halos_]
    have h2 : (fun r => (p r).nBirth) = fun r => (new r).length := funext (fun r => (hp r).nBirth)
    rw [h1, h2]
    exact eu
  refine ⟨d, congrArg Inputs.snap e, ?_, c, f, hlast, fun r => ?_, fun r => ⟨?_, ?_⟩, halos, hgr, fun r => congrFun (congrArg Inputs.haloIds e) r⟩
  · rw [e]
    exact hx _ _ _ (fun r i => hw.env r _ i) (fun r i => hw.env' r _ i)
  · refine snapshot_allOf c f (fun r i => ?_) r ?_
    · rw [show d.env = _ from congrArg Inputs.env e]
      exact (hw.env r _ i).1
    · rw [show d.old = _ from congrArg Inputs.old e, show d.new = _ from congrArg Inputs.new e]
      exact (hp r).all
  · rw [show d.env = _ from congrArg Inputs.env e, m0]
  · rw [show d.env' = _ from congrArg Inputs.env' e, f1]

end HBT.MainLoop
