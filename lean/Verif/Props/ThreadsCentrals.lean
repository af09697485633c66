import Verif.Lemmas.ThreadsCentrals
import Verif.Props.Main
/-!
# C61: the loops of `DecideCentrals` and `FeedCentrals`

The threads draw the indices of the new subhaloes from a counter. So the hierarchy after `FeedCentrals` depends on the schedule; but it is always one that
`prepareRank` computes for some order of the haloes, and C58 holds for all orders.
-/
set_option linter.unusedSectionVars false
namespace HBT.Props
open HBT HBT.Model HBT.Spec HBT.Threads HBT.MainLoop
variable {K D E S R C : Type}

/-- The membership table and the groups of a process after `DecideCentrals`. -/
theorem table_facts [LinearOrder K] [MassSum K] [Mul K] [LinearOrder R] {b : Build K D S} (hb : BuildOk b) (d : Nat → Nat → R)
    (nh : Nat) (hosted : List (Sub K D))
    (hhost : ∀ s ∈ hosted, -1 ≤ s.hostHaloId ∧ s.hostHaloId < nh ∧ (s.particles = [] → s.hostHaloId = -1)) :
    ∃ t groups0 field groups, buildTable b.sortMass nh hosted true = .ok t ∧ readGroups t nh 0 = .ok groups0 ∧ t.group (-1) = .ok field ∧
      decideCentrals b.ratio d hosted groups0 0 = .ok groups ∧ groups0.length = nh ∧ groups.length = nh ∧
      (∀ (h c : Nat) tl, groups[h]? = some (c :: tl) → ∃ s, hosted[c]? = some s ∧ s.hostHaloId = (h : Int) ∧ s.particles ≠ []) ∧
      ((List.range nh).filter (fun h => decide (groups[h]? = some []))).length = t.nBirth := by
  obtain ⟨t, et, ht⟩ := C23_build b.sortMass hb.mass nh hosted true (fun s hs _ => ⟨(hhost s hs).1, (hhost s hs).2.1⟩)
  have hlists := ht.lists
  have hsel : ∀ h : Int, ∃ l : List Nat, -1 ≤ h → h < nh → t.group h = .ok l ∧ l.Perm (membersOf true hosted h) := by
    intro h
    by_cases h1 : -1 ≤ h ∧ h < nh
    · obtain ⟨l, e, p, _⟩ := hlists h h1.1 h1.2
      exact ⟨l, fun _ _ => ⟨e, p⟩⟩
    · exact ⟨[], fun a c => absurd ⟨a, c⟩ h1⟩
  choose L hL using hsel
  have hread := readGroups_ok t L nh 0 (fun x h1 h2 => (hL x (by omega) (by omega)).1)
  have hfield := hL (-1) (le_refl _) (by omega)
  have hin : ∀ g ∈ (List.range nh).map (fun i : Nat => L (0 + i)), ∀ i ∈ g, i < hosted.length := by
    intro g hg i hi
    obtain ⟨j, hj, rfl⟩ := List.mem_map.1 hg
    have := (hL (0 + (j : Int)) (by omega) (by have := List.mem_range.1 hj; omega)).2.mem_iff.1 hi
    obtain ⟨s, hs, _⟩ := (mem_membersOf _ _ _ _).1 this
    exact (List.getElem?_eq_some_iff.1 hs).1
  obtain ⟨groups, eg, pg⟩ := decideCentrals_perm b.ratio d hosted _ 0 hin
  have hgl : groups.length = nh := by rw [pg.length_eq]; simp
  have hgroups : ∀ (h : Nat) (g : List Nat), groups[h]? = some g → h < nh ∧ g.Perm (membersOf true hosted (h : Int)) := by
    intro h g hg
    have hlt : h < nh := by rw [← hgl]; exact (List.getElem?_eq_some_iff.1 hg).1
    refine ⟨hlt, ?_⟩
    have := (List.forall₂_iff_get.1 pg).2 h (by rw [hgl]; exact hlt) (by simpa using hlt)
    have e : groups[h]'(by rw [hgl]; exact hlt) = g := (List.getElem?_eq_some_iff.1 hg).2
    simp only [List.get_eq_getElem, e, List.getElem_map, List.getElem_range] at this
    refine this.trans ?_
    have := (hL (0 + (h : Int)) (by omega) (by omega)).2
    simpa using this
  refine ⟨t, _, _, groups, et, hread, hfield.1, eg, by simp, hgl, ?_, ?_⟩
  · intro h c tl hg
    have := (hgroups h _ hg).2.mem_iff.1 List.mem_cons_self
    obtain ⟨s, hs, e, _⟩ := (mem_membersOf _ _ _ _).1 this
    refine ⟨s, hs, e, fun hnil => ?_⟩
    have := (hhost s (List.mem_of_getElem? hs)).2.2 hnil
    omega
  · rw [ht.births]
    congr 1
    apply List.filter_congr
    intro h hh
    have hlt := List.mem_range.1 hh
    have e : groups[h]? = some (groups[h]'(by omega)) := List.getElem?_eq_getElem (by omega)
    have hp := (hgroups h _ e).2
    rw [e]
    rw [Bool.eq_iff_iff, decide_eq_true_iff, List.isEmpty_iff, Option.some.injEq]
    constructor
    · intro h'; rw [h'] at hp; exact hp.nil_eq.symm
    · intro h'; rw [h'] at hp; exact hp.eq_nil

/-- The parallel loops on one process: its haloes, its subhaloes after `AssignHosts`, and coordinates that the distance is a function of. -/
def CentralsByThreads [MassSum K] [Mul K] [LT K] [DecidableLT K] [LT R] [DecidableLT R] {P : Nat} (b : Build K D S) (w : SnapInput K D E S R P) (r : Fin P)
    (halos : List (HaloRec S (Particle D))) (hosted : List (Sub K D)) (C : Type) (dist : C → C → R) (centres haloCentres newCentres : List C) : Prop :=
  ∃ t groups0 groups, buildTable b.sortMass halos.length hosted true = .ok t ∧ readGroups t halos.length 0 = .ok groups0 ∧
    -- `DecideCentrals`
    (∀ npro, Completes Races [decidePhase b.ratio dist halos.length]
      (memC ⟨hosted, centres, groups0, halos.map HaloRec.particles, haloCentres, npro⟩)
      (memC ⟨hosted, centres, groups, halos.map HaloRec.particles, haloCentres, npro⟩)) ∧
    -- `FeedCentrals`
    (newCentres.length = t.nBirth → CompletesTo Races [feedPhase w.snap halos.length]
      (memC ⟨hosted ++ List.replicate t.nBirth freshSub, centres ++ newCentres, groups, halos.map HaloRec.particles, haloCentres, hosted.length⟩)
      (fun m => ∃ (order : List Nat) (p : Prepared K D S) (cs : List C) (left : List (List (Particle D))),
        order.Perm (List.range halos.length) ∧ prepareRank b { w with feedOrder := fun _ _ => order } r halos hosted = .ok p ∧
        m = memC ⟨p.subs, cs, p.groups, left, haloCentres, p.nOld + p.nBirth⟩ ∧
        -- the coordinates
        cs.length = centres.length + newCentres.length ∧ (∀ i, i < hosted.length → cs[i]? = centres[i]?) ∧
        ∀ (i h : Nat) s, hosted.length ≤ i → p.subs[i]? = some s → s.hostHaloId = (h : Int) → cs[i]? = haloCentres[h]?))

theorem centralsByThreads [LinearOrder K] [MassSum K] [Mul K] [LinearOrder R] {P : Nat} {b : Build K D S} (hb : BuildOk b) {w : SnapInput K D E S R P}
    (r : Fin P) {halos : List (HaloRec S (Particle D))} {hosted : List (Sub K D)}
    (hhost : ∀ s ∈ hosted, -1 ≤ s.hostHaloId ∧ s.hostHaloId < halos.length ∧ (s.particles = [] → s.hostHaloId = -1))
    {dist : C → C → R} {centres haloCentres : List C} (hcl : centres.length = hosted.length) (hhc : haloCentres.length = halos.length)
    (hd : ∀ h i x y, haloCentres[h]? = some x → centres[i]? = some y → w.dist r halos hosted h i = dist x y) (newCentres : List C) :
    CentralsByThreads b w r halos hosted C dist centres haloCentres newCentres := by
  obtain ⟨t, groups0, field, groups, et, er, ef, ed, hl0, hl, hmem, hnb⟩ := table_facts hb (w.dist r halos hosted) halos.length hosted hhost
  have hapart : ∀ (h h' c : Nat) tl tl', groups[h]? = some (c :: tl) → groups[h']? = some (c :: tl') → h = h' := by
    intro h h' c tl tl' hg hg'
    obtain ⟨s, hs, e, _⟩ := hmem h c tl hg
    obtain ⟨s', hs', e', _⟩ := hmem h' c tl' hg'
    rw [hs] at hs'
    cases hs'
    omega
  refine ⟨t, groups0, groups, et, er, fun npro => ?_, fun hnc => ?_⟩
  · have := decide_completes (w := ⟨hosted, centres, groups0, halos.map HaloRec.particles, haloCentres, npro⟩) (by simp only; omega) hcl hd ed
    simp only [hl0] at this
    exact this
  · have hfeed : ∀ order : List Nat, order.Perm (List.range halos.length) →
        ∃ st, feedLoop w.snap groups order ⟨hosted.length, hosted ++ List.replicate t.nBirth freshSub, halos.map HaloRec.particles⟩ = .ok st ∧
          FeedInv w.snap freshSub groups t.nBirth hosted (halos.map HaloRec.particles) order st := by
      intro order ho
      obtain ⟨st, e, hI⟩ := feedLoop_ok w.snap (freshSub (K := K) (D := D)) groups t.nBirth hosted (halos.map HaloRec.particles) (by rw [hl, List.length_map])
        (by rw [List.length_map]; exact hnb.symm) (fun h c tl hg => by obtain ⟨s, h1, _, h2⟩ := hmem h c tl hg; exact ⟨s, h1, h2⟩) hapart
        order [] ⟨hosted.length, hosted ++ List.replicate t.nBirth freshSub, halos.map HaloRec.particles⟩ (by simpa using ho)
        { npro := by simp [orphaned]
          len := by simp
          hlen := rfl
          rest := fun _ _ => rfl
          same := fun p hp _ => by simp only; rw [List.getElem?_append_left hp]
          fed := fun h hm => by simp at hm
          born := fun j h hj => by simp [orphaned] at hj
          free := fun i hi hi2 => by
            simp only at hi ⊢
            rw [List.getElem?_append_right hi, List.getElem?_replicate, if_pos (by omega)] }
      exact ⟨st, e, by simpa using hI⟩
    have hrun := feed_completes (snap := w.snap)
      (w := ⟨hosted ++ List.replicate t.nBirth freshSub, centres ++ newCentres, groups, halos.map HaloRec.particles, haloCentres, hosted.length⟩)
      (by simp [hl]) (by simp [hhc]) (by simp [hcl, hnc]) (fun h c tl hg => by
        obtain ⟨s, hs, _⟩ := hmem h c tl hg
        exact (List.getElem?_eq_some_iff.1 hs).1) hapart (by
        intro order ho
        obtain ⟨st, e, _⟩ := hfeed order (by simpa using ho)
        exact ⟨st, e⟩)
    simp only [List.length_map] at hrun
    intro T work hT hw
    obtain ⟨a1, a2⟩ := hrun T work hT hw
    refine ⟨a1, fun s hs => ⟨(a2 s hs).1, fun hstuck => ?_⟩⟩
    obtain ⟨b1, order, st, cs, ho, e, hcs, hm⟩ := (a2 s hs).2 hstuck
    obtain ⟨st', e', hI⟩ := hfeed order ho
    rw [e] at e'
    cases e'
    have hon : (orphaned groups order).length = t.nBirth := by
      rw [← hnb]
      exact (ho.filter _).length_eq
    refine ⟨b1, order, ⟨halos, hosted.length, t.nBirth, groups, field, st.subs⟩, cs, st.halos, ho, ?_, ?_, ?_, ?_, ?_⟩
    · unfold prepareRank
      rw [et, Outcome.bind_ok, er, Outcome.bind_ok, ef, Outcome.bind_ok]
      simp only [ed, Outcome.bind_ok]
      unfold feedCentrals
      rw [e, Outcome.bind_ok]
    · rw [hm]
      simp only [hI.npro, hon]
    · rw [hcs.len, List.length_append]
    · intro i hi
      rw [hcs.old i hi, List.getElem?_append_left (by omega)]
    · intro i h s hi hs hh
      simp only at hs
      obtain ⟨j, rfl⟩ : ∃ j, i = hosted.length + j := ⟨i - hosted.length, by omega⟩
      have hj : j < (orphaned groups order).length := by
        have := (List.getElem?_eq_some_iff.1 hs).1
        rw [hI.len] at this
        omega
      have hjs := List.getElem?_eq_getElem hj
      have hlt : (orphaned groups order)[j] < halos.length := by
        have : (orphaned groups order)[j] ∈ order := (List.mem_filter.1 (List.getElem_mem hj)).1
        exact List.mem_range.1 (ho.mem_iff.1 this)
      have := hI.born j _ hjs (halos[(orphaned groups order)[j]].particles) (by rw [List.getElem?_map, List.getElem?_eq_getElem hlt]; rfl)
      rw [hs] at this
      cases this
      have hh' : (((orphaned groups order)[j] : Nat) : Int) = (h : Int) := hh
      have hh'' : (orphaned groups order)[j] = h := by exact_mod_cast hh'
      rw [hcs.born j _ hjs, hh'']

/-- The beginning of an iteration. -/
theorem hosted_facts [LinearOrder K] [MassSum K] [Mul K] [LinearOrder R] [LinearOrder E] [Zero E] {Q P : Nat} {b : Build K D S}
    {ids : List Int} {w : SnapInput K D E S R P} (hb : BuildOk b) (hw : SnapInputOk b ids w) {prev : Fin Q → List (Sub K D)}
    {cur : Fin P → List (Sub K D)} (hres : Resumed prev cur)
    (hle : ∀ r, ∀ s ∈ prev r, s.nbound ≤ s.particles.length) (hk : ∀ r, AllOf (fun p => Known b.dmOnly ids p.id) (cur r)) :
    ∃ x halos subs hosted, placeParticles b w = .ok x ∧ updateHalos b x.2 x.1 w.halos = .ok halos ∧ updateSubs b x.2 x.1 cur = .ok subs ∧
      assignHosts b.hostChunk (fun r => haloIndex b (halos r)) (fun r => inSnapshot b (x.1 r)) subs = .ok hosted ∧
      ∀ r, ∀ s ∈ hosted r, -1 ≤ s.hostHaloId ∧ s.hostHaloId < (halos r).length ∧ (s.particles = [] → s.hostHaloId = -1) := by
  obtain ⟨orig, horig, hsame⟩ := hres
  have hlo : ∀ r, ∀ u ∈ orig r, u.nbound ≤ u.particles.length := by
    intro r u hu
    obtain ⟨r', hr'⟩ := mem_everyone.1 (horig.mem_iff.1 (mem_everyone.2 ⟨r, hu⟩))
    exact hle r' u hr'
  have hlc : ∀ r, ∀ s ∈ cur r, s.nbound ≤ s.particles.length := by
    intro r s hs
    obtain ⟨i, hi⟩ := List.getElem?_of_mem hs
    have hil := (List.getElem?_eq_some_iff.1 hi).1
    have hol : i < (orig r).length := by rw [(hsame r).length_eq]; exact hil
    have h := (List.forall₂_iff_get.1 (hsame r)).2 i hol hil
    simp only [List.get_eq_getElem, (List.getElem?_eq_some_iff.1 hi).2] at h
    obtain ⟨ps, rfl, hps⟩ := h
    have := congrArg List.length hps
    rw [List.length_map, List.length_map] at this
    show (orig r)[i].nbound ≤ ps.length
    rw [this]
    exact hlo r _ (List.getElem_mem hol)
  obtain ⟨snap, ranges, eload, hload⟩ := placeParticles_ok hb hw
  obtain ⟨halos, ehalo, hnd, hnn, hhm, hgr⟩ := updateHalos_ok hb hw hload
  have esub := updateSubs_ok hload cur hlc hk
  have hsm : ∀ r, AllOf (· ∈ allParticles w.parts) ((cur r).map (renew b (allParticles w.parts))) := by
    intro r s hs p hp
    obtain ⟨v, hv, rfl⟩ := List.mem_map.1 hs
    exact fresh_mem hw.ids_ (hk r v hv) p hp
  obtain ⟨hosted, moved, ehost, hmoved, hplace⟩ := assign_ok hb hload halos orig
    (fun r => (cur r).map (renew b (allParticles w.parts))) (fun r => by rw [List.length_map, (hsame r).length_eq]) hsm
  refine ⟨(snap, ranges), halos, _, hosted, eload, ehalo, esub, ehost, fun r t ht => ?_⟩
  obtain ⟨i, hi⟩ := List.getElem?_of_mem ht
  have hil := (List.getElem?_eq_some_iff.1 hi).1
  have h := (List.forall₂_iff_get.1 (hplace r)).2 i (by rw [(hplace r).length_eq]; exact hil) hil
  simp only [List.get_eq_getElem, (List.getElem?_eq_some_iff.1 hi).2] at h
  obtain ⟨r0, s, h', hz, rfl, h1, h2, h3⟩ := h
  exact ⟨h1, h2, h3⟩

/-- C61. In a session, whatever has happened before: the loops of `DecideCentrals` and `FeedCentrals` of the next snapshot have no races and finish, however
the haloes are shared out to threads. After `FeedCentrals` the memory holds what `prepareRank` computes for some order of the haloes. -/
theorem C61_centrals [LinearOrder K] [MassSum K] [Mul K] [LinearOrder R] [LinearOrder E] [Zero E] {b : Build K D S} (hb : BuildOk b) {sim : Int → List Int}
    (hsim : Persistent b sim) {disks : Int → Disk K D} {hist : List (Σ P, SnapInput K D E S R P)} (h : Reach b sim disks hist) {P : Nat} (hP : 0 < P)
    {n : Nat} (hn : n ≤ hist.length) {xs : List (SnapInput K D E S R P × List (WriteOp P))} {w : SnapInput K D E S R P} {ops : List (WriteOp P)}
    (hx : Consecutive b sim (b.minIndex + n) (xs ++ [(w, ops)])) {st st' : Fin P → List (Sub K D)} {disks' : Int → Disk K D}
    (e : launch P b (b.minIndex + n) disks = .ok st) (e' : session b xs st disks = .ok (st', disks')) :
    ∃ x halos subs hosted, placeParticles b w = .ok x ∧ updateHalos b x.2 x.1 w.halos = .ok halos ∧ updateSubs b x.2 x.1 st' = .ok subs ∧
      assignHosts b.hostChunk (fun r => haloIndex b (halos r)) (fun r => inSnapshot b (x.1 r)) subs = .ok hosted ∧
      ∀ (r : Fin P) (C : Type) (dist : C → C → R) (centres haloCentres newCentres : List C), centres.length = (hosted r).length →
        haloCentres.length = (halos r).length →
        (∀ h i x y, haloCentres[h]? = some x → centres[i]? = some y → w.dist r (halos r) (hosted r) h i = dist x y) →
        CentralsByThreads b w r (halos r) (hosted r) C dist centres haloCentres newCentres := by
  obtain ⟨tr, ha⟩ := reach_archive hb hsim h
  have hl : (hist.drop (hist.length - n)).length = n := by rw [List.length_drop]; omega
  have hd := ha.drop (hist.length - n)
  obtain ⟨st0, l1, l2⟩ := launch_ok hsim hd hP
  rw [hl, e] at l1
  cases l1
  obtain ⟨hx1, hx2⟩ := hx.append
  obtain ⟨st1, disks1, tr1, s1, s2, s3, _⟩ := session_ok hb hsim hx1 hd l2 (by rw [hl])
  rw [e'] at s1
  cases s1
  have hinv := run_inv (params_ok hb) s2.run
  have hlen : (((xs.reverse.map (fun x => (⟨P, x.1⟩ : Σ P, SnapInput K D E S R P))) ++ hist.drop (hist.length - n)).length : Int) = n + xs.length := by
    rw [List.length_append, hl, List.length_map, List.length_reverse]
    push_cast
    omega
  cases hx2 with
  | cons snap ok _ _ =>
    have hk := s3.known
    rw [hlen, ← add_assoc] at hk
    obtain ⟨x, halos, subs, hosted, e1, e2, e3, e4, e5⟩ := hosted_facts hb ok s3.resumed (fun r s hs => (hinv.tidy r s hs).le) hk
    exact ⟨x, halos, subs, hosted, e1, e2, e3, e4, fun r C dist centres haloCentres newCentres h1 h2 h3 =>
      centralsByThreads hb r (e5 r) h1 h2 h3 newCentres⟩

end HBT.Props
