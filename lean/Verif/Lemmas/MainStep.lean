import Verif.Lemmas.MainLoop
/-!
# One iteration of the main loop
-/
set_option linter.unusedSectionVars false
namespace HBT.MainLoop
open HBT HBT.Model HBT.Spec HBT.Props
variable {K D E S R : Type}

/-! ## `DecideCentrals` -/

theorem decideCentral_perm [LinearOrder K] [Mul K] [LinearOrder R] (ratio : K) (dist : Nat → R) (subs : List (Sub K D)) (g : List Nat)
    (hin : ∀ i ∈ g, i < subs.length) : ∃ g', decideCentral ratio dist subs g = .ok g' ∧ g'.Perm g := by
  unfold decideCentral
  by_cases hlen : 1 < g.length
  swap
  · rw [if_neg hlen]; exact ⟨g, rfl, List.Perm.refl _⟩
  rw [if_pos hlen]
  obtain ⟨masses, e, hl, _⟩ := readAll_ok Sub.mbound subs g hin
  rw [e, Outcome.bind_ok, Outcome.get_of_lt (by omega), Outcome.bind_ok]
  simp only
  split
  swap
  · exact ⟨g, rfl, List.Perm.refl _⟩
  split
  · exact ⟨g, rfl, List.Perm.refl _⟩
  · rename_i d0 rest hds
    have hdl : rest.length + 1 ≤ g.length := by
      have := congrArg List.length hds
      rw [List.length_map, List.length_take, List.length_cons] at this
      omega
    split
    · have hk : closest rest 1 d0 0 < g.length := by
        rcases closest_spec rest 1 d0 0 with ⟨h, _⟩ | ⟨j, d, hj, h, _⟩
        · rw [h]; omega
        · have := (List.getElem?_eq_some_iff.1 hj).1
          rw [h]; omega
      exact ⟨_, swapFront_ok g _ hk, swapped_perm g _ hk⟩
    · exact ⟨g, rfl, List.Perm.refl _⟩

theorem decideCentrals_perm [LinearOrder K] [Mul K] [LinearOrder R] (ratio : K) (dist : Nat → Nat → R) (subs : List (Sub K D)) :
    ∀ (gs : List (List Nat)) (h : Nat), (∀ g ∈ gs, ∀ i ∈ g, i < subs.length) →
    ∃ gs', decideCentrals ratio dist subs gs h = .ok gs' ∧ List.Forall₂ List.Perm gs' gs := by
  intro gs
  induction gs with
  | nil => intro h _; exact ⟨[], rfl, List.Forall₂.nil⟩
  | cons g gs ih =>
    intro h hin
    obtain ⟨g', e1, p1⟩ := decideCentral_perm ratio (dist h) subs g (hin g List.mem_cons_self)
    obtain ⟨gs', e2, p2⟩ := ih (h + 1) (fun g hg => hin g (List.mem_cons_of_mem _ hg))
    exact ⟨g' :: gs', by rw [decideCentrals, e1, Outcome.bind_ok, e2, Outcome.bind_ok], List.Forall₂.cons p1 p2⟩

/-! ## Preparing one process -/

theorem membersOf_congr {l l' : List (Sub K D)} (hl : l.length = l'.length)
    (h : ∀ i : Nat, (l[i]?).map Sub.hostHaloId = (l'[i]?).map Sub.hostHaloId) (x : Int) : membersOf true l x = membersOf true l' x := by
  unfold membersOf
  rw [hl]
  apply List.filter_congr
  intro i _
  have := h i
  cases h1 : l[i]? with
  | none => rw [h1] at this; cases h2 : l'[i]? with
    | none => rfl
    | some s' => rw [h2] at this; cases this
  | some s => rw [h1] at this; cases h2 : l'[i]? with
    | none => rw [h2] at this; cases this
    | some s' =>
      rw [h2] at this
      simp only [Option.map_some, Option.some.injEq] at this
      simp [this]

/-- A subhalo before and after `FeedCentrals`. -/
def Fed (s t : Sub K D) : Prop := t = s ∨ ∃ ps, t = { s with particles := ps, nbound := ps.length }

theorem Fed.host {s t : Sub K D} (h : Fed s t) : t.hostHaloId = s.hostHaloId := by
  rcases h with rfl | ⟨ps, rfl⟩ <;> rfl

/-- What a prepared process looks like. -/
structure PrepOk [Zero K] (b : Build K D S) (snap : Int) (Q : Particle D → Prop) (halos : List (HaloRec S (Particle D)))
    (hosted : List (Sub K D)) (p : Prepared K D S) (old new : List (Sub K D)) : Prop where
  halos_ : p.halos = halos
  nOld : p.nOld = old.length
  nBirth : p.nBirth = new.length
  subs_ : p.subs = old ++ new
  ngroups : p.groups.length = halos.length
  groups_ : ∀ (h : Nat) (g : List Nat), p.groups[h]? = some g → g.Perm (membersOf true old (h : Int))
  field_ : p.field.Perm (membersOf true old (-1))
  fed : List.Forall₂ Fed hosted old
  born : ∀ s ∈ new, ∃ h : Nat, ∃ ps : List (Particle D), s = newborn freshSub snap h ps ∧ h < halos.length ∧
    ∀ u ∈ old, u.hostHaloId ≠ (h : Int)
  bornHosts : (new.map Sub.hostHaloId).Nodup
  all : AllOf Q (old ++ new)

theorem prepareRank_ok [LinearOrder K] [MassSum K] [Mul K] [LinearOrder R] [LE E] {P : Nat} {b : Build K D S} {ids : List Int}
    {w : SnapInput K D E S R P} (hb : BuildOk b) (hw : SnapInputOk b ids w) (r : Fin P) (Q : Particle D → Prop)
    (halos : List (HaloRec S (Particle D))) (hosted : List (Sub K D))
    (hhost : ∀ s ∈ hosted, -1 ≤ s.hostHaloId ∧ s.hostHaloId < halos.length ∧ (s.particles = [] → s.hostHaloId = -1))
    (hQ : AllOf Q hosted) (hQ' : ∀ h ∈ halos, ∀ p ∈ h.particles, Q p) :
    ∃ p old new, prepareRank b w r halos hosted = .ok p ∧ PrepOk b w.snap Q halos hosted p old new := by
  obtain ⟨t, et, ht⟩ := C23_build b.sortMass hb.mass halos.length hosted true
    (fun s hs _ => ⟨(hhost s hs).1, (hhost s hs).2.1⟩)
  have hlists := ht.lists
  have hsel : ∀ h : Int, ∃ l : List Nat, -1 ≤ h → h < halos.length → t.group h = .ok l ∧ l.Perm (membersOf true hosted h) := by
    intro h
    by_cases h1 : -1 ≤ h ∧ h < halos.length
    · obtain ⟨l, e, p, _⟩ := hlists h h1.1 h1.2
      exact ⟨l, fun _ _ => ⟨e, p⟩⟩
    · exact ⟨[], fun a c => absurd ⟨a, c⟩ h1⟩
  choose L hL using hsel
  have hread := readGroups_ok t L halos.length 0 (fun x h1 h2 => (hL x (by omega) (by omega)).1)
  have hfield := hL (-1) (le_refl _) (by omega)
  have hin : ∀ g ∈ (List.range halos.length).map (fun i : Nat => L (0 + i)), ∀ i ∈ g, i < hosted.length := by
    intro g hg i hi
    obtain ⟨j, hj, rfl⟩ := List.mem_map.1 hg
    have := (hL (0 + (j : Int)) (by omega) (by have := List.mem_range.1 hj; omega)).2.mem_iff.1 hi
    obtain ⟨s, hs, _⟩ := (mem_membersOf _ _ _ _).1 this
    exact (List.getElem?_eq_some_iff.1 hs).1
  obtain ⟨groups, eg, pg⟩ := decideCentrals_perm b.ratio (w.dist r halos hosted) hosted _ 0 hin
  have hgl : groups.length = halos.length := by rw [pg.length_eq]; simp
  have hgroups : ∀ (h : Nat) (g : List Nat), groups[h]? = some g → h < halos.length ∧ g.Perm (membersOf true hosted (h : Int)) := by
    intro h g hg
    have hlt : h < halos.length := by rw [← hgl]; exact (List.getElem?_eq_some_iff.1 hg).1
    refine ⟨hlt, ?_⟩
    have := (List.forall₂_iff_get.1 pg).2 h (by rw [hgl]; exact hlt) (by simpa using hlt)
    have e : groups[h]'(by rw [hgl]; exact hlt) = g := (List.getElem?_eq_some_iff.1 hg).2
    simp only [List.get_eq_getElem, e, List.getElem_map, List.getElem_range] at this
    refine this.trans ?_
    have := (hL (0 + (h : Int)) (by omega) (by omega)).2
    simpa using this
  have hmem : ∀ (h c : Nat) tl, groups[h]? = some (c :: tl) → ∃ s, hosted[c]? = some s ∧ s.hostHaloId = (h : Int) := by
    intro h c tl hg
    have := (hgroups h _ hg).2.mem_iff.1 List.mem_cons_self
    obtain ⟨s, hs, e, _⟩ := (mem_membersOf _ _ _ _).1 this
    exact ⟨s, hs, e⟩
  obtain ⟨st, births, es, pb, hsl, hborn, hfed, hrest⟩ := C25_feed_centrals w.snap (freshSub (K := K) (D := D))
    (w.feedOrder r (List.range halos.length)) groups hosted (halos.map HaloRec.particles) (by rw [hgl, List.length_map])
    (by rw [List.length_map]; exact hw.feedOrder r _)
    (fun h c tl hg => by
      obtain ⟨s, hs, e⟩ := hmem h c tl hg
      refine ⟨s, hs, fun hnil => ?_⟩
      have := (hhost s (List.mem_of_getElem? hs)).2.2 hnil
      omega)
    (fun h h' c tl tl' hg hg' => by
      obtain ⟨s, hs, e⟩ := hmem h c tl hg
      obtain ⟨s', hs', e'⟩ := hmem h' c tl' hg'
      rw [hs] at hs'
      cases hs'
      omega)
  rw [List.length_map] at es pb
  have hempty : ∀ h : Nat, h < halos.length → (decide (groups[h]? = some []) = (membersOf true hosted (h : Int)).isEmpty) := by
    intro h hlt
    have e : groups[h]? = some (groups[h]'(by omega)) := List.getElem?_eq_getElem (by omega)
    have hp := (hgroups h _ e).2
    rw [e]
    rw [Bool.eq_iff_iff, decide_eq_true_iff, List.isEmpty_iff, Option.some.injEq]
    constructor
    · intro h'; rw [h'] at hp; exact hp.nil_eq.symm
    · intro h'; rw [h'] at hp; exact hp.eq_nil
  have hnb : ((List.range halos.length).filter (fun h => decide (groups[h]? = some []))).length = t.nBirth := by
    rw [ht.births]
    congr 1
    apply List.filter_congr
    intro h hh
    exact hempty h (List.mem_range.1 hh)
  rw [hnb] at es
  have hbl : births.length = t.nBirth := by rw [pb.length_eq, hnb]
  have hbn : births.Nodup := pb.nodup_iff.2 (List.nodup_range.filter _)
  have hb1 : ∀ h ∈ births, h < halos.length ∧ groups[h]? = some [] := by
    intro h hh
    have := List.mem_filter.1 (pb.mem_iff.1 hh)
    exact ⟨List.mem_range.1 this.1, by simpa using this.2⟩
  have hnew : ∀ (j h : Nat), births[j]? = some h → ∃ halo ∈ halos,
      st.subs[hosted.length + j]? = some (newborn freshSub w.snap h halo.particles) := by
    intro j h hj
    obtain ⟨hlt, _⟩ := hb1 h (List.mem_of_getElem? hj)
    refine ⟨halos[h], List.getElem_mem hlt, ?_⟩
    exact hborn j h _ hj (by rw [List.getElem?_map, List.getElem?_eq_getElem hlt]; rfl)
  -- the old ones
  have hold : ∀ (i : Nat) (s : Sub K D), hosted[i]? = some s → ∃ s', st.subs[i]? = some s' ∧ Fed s s' ∧
      ((∀ p ∈ s'.particles, p ∈ s.particles) ∨ ∃ h ∈ halos, ∀ p ∈ s'.particles, p ∈ h.particles) := by
    intro i s hs
    have hi := (List.getElem?_eq_some_iff.1 hs).1
    by_cases hc : ∃ (h : Nat) (tl : List Nat), groups[h]? = some (i :: tl)
    · obtain ⟨h, tl, hg⟩ := hc
      have hlt := (hgroups h _ hg).1
      obtain ⟨s', e', ps, most, _, e2, hp, _⟩ := hfed h i tl s halos[h].particles hg hs
        (by rw [List.getElem?_map, List.getElem?_eq_getElem hlt]; rfl)
      refine ⟨s', e', Or.inr ⟨ps, by rw [e2, hp.length_eq]⟩, Or.inr ⟨halos[h], List.getElem_mem hlt, fun p hpp => ?_⟩⟩
      rw [e2] at hpp
      exact hp.mem_iff.1 hpp
    · refine ⟨s, ?_, Or.inl rfl, Or.inl (fun p hp => hp)⟩
      rw [hrest i hi (fun h c tl hg hci => hc ⟨h, tl, by rw [← hci]; exact hg⟩), hs]
  have hf : List.Forall₂ Fed hosted (st.subs.take hosted.length) := by
    rw [List.forall₂_iff_get]
    refine ⟨by rw [List.length_take]; omega, fun i h1 h2 => ?_⟩
    obtain ⟨s', e', h', _⟩ := hold i _ (List.getElem?_eq_getElem h1)
    simp only [List.get_eq_getElem, List.getElem_take]
    rw [List.getElem?_eq_some_iff] at e'
    obtain ⟨_, e'⟩ := e'
    rw [e']
    exact h'
  have hlen : (st.subs.take hosted.length).length = hosted.length := by rw [List.length_take]; omega
  have hmo : ∀ x, membersOf true hosted x = membersOf true (st.subs.take hosted.length) x := by
    refine membersOf_congr hlen.symm (fun i => ?_)
    cases hs : hosted[i]? with
    | none =>
      rw [List.getElem?_eq_none_iff] at hs
      rw [List.getElem?_eq_none_iff.2 (by omega)]
    | some s =>
      obtain ⟨s', e', h', _⟩ := hold i s hs
      rw [List.getElem?_take_of_lt (List.getElem?_eq_some_iff.1 hs).1, e']
      simp [h'.host]
  have hdrop : ∀ s ∈ st.subs.drop hosted.length, ∃ (j h : Nat), ∃ halo ∈ halos, births[j]? = some h ∧
      s = newborn freshSub w.snap h halo.particles := by
    intro s hs
    obtain ⟨j, hj⟩ := List.getElem?_of_mem hs
    rw [List.getElem?_drop] at hj
    have hjl : j < births.length := by
      have := (List.getElem?_eq_some_iff.1 hj).1
      omega
    obtain ⟨halo, hh, e⟩ := hnew j _ (List.getElem?_eq_getElem hjl)
    rw [hj] at e
    exact ⟨j, _, halo, hh, List.getElem?_eq_getElem hjl, by simpa using e⟩
  refine ⟨⟨halos, hosted.length, t.nBirth, groups, L (-1), st.subs⟩, st.subs.take hosted.length, st.subs.drop hosted.length, ?_, ?_⟩
  · unfold prepareRank
    rw [et, Outcome.bind_ok, hread, Outcome.bind_ok, hfield.1, Outcome.bind_ok, eg, Outcome.bind_ok, es, Outcome.bind_ok]
  · refine ⟨rfl, hlen.symm, by rw [List.length_drop]; simp only; omega, (List.take_append_drop _ _).symm, hgl,
      fun h g hg => by rw [← hmo]; exact (hgroups h g hg).2, by rw [← hmo]; exact hfield.2, hf, ?_, ?_, ?_⟩
    · intro s hs
      obtain ⟨j, h, halo, hh, hj, rfl⟩ := hdrop s hs
      obtain ⟨hlt, he⟩ := hb1 h (List.mem_of_getElem? hj)
      refine ⟨h, halo.particles, rfl, hlt, fun u hu hc => ?_⟩
      obtain ⟨i, hi⟩ := List.getElem?_of_mem hu
      have : i ∈ membersOf true hosted (h : Int) := by
        rw [hmo, mem_membersOf]
        exact ⟨u, hi, hc, Or.inl rfl⟩
      have h2 := (hgroups h _ he).2
      rw [h2.nil_eq.symm] at this
      cases this
    · have : (st.subs.drop hosted.length).map Sub.hostHaloId = births.map (fun h : Nat => (h : Int)) := by
        apply List.ext_getElem?
        intro j
        rw [List.getElem?_map, List.getElem?_map, List.getElem?_drop]
        cases hj : births[j]? with
        | none =>
          rw [List.getElem?_eq_none_iff] at hj
          rw [List.getElem?_eq_none_iff.2 (by omega)]
          rfl
        | some h =>
          obtain ⟨halo, _, e⟩ := hnew j h hj
          rw [e]
          rfl
      rw [this]
      exact hbn.map (fun a c h => by simpa using h)
    · intro s hs p hp
      rcases List.mem_append.1 hs with h | h
      · obtain ⟨i, hi⟩ := List.getElem?_of_mem h
        have hil : i < hosted.length := by
          have := (List.getElem?_eq_some_iff.1 hi).1
          omega
        obtain ⟨s', e', _, h'⟩ := hold i _ (List.getElem?_eq_getElem hil)
        rw [List.getElem?_take_of_lt hil, e'] at hi
        cases hi
        rcases h' with h' | ⟨halo, hh, h'⟩
        · exact hQ _ (List.getElem_mem hil) p (h' p hp)
        · exact hQ' halo hh p (h' p hp)
      · obtain ⟨j, x, halo, hh, hj, rfl⟩ := hdrop s h
        exact hQ' halo hh p hp

end HBT.MainLoop
