import Verif.Lemmas.Linked
import Verif.Lemmas.Update
/-!
# C26: the nesting hierarchy over all histories
-/
namespace HBT.Props
open HBT HBT.Model HBT.Spec HBT.Spec.Forest
variable {K D : Type}

/-! ## The histories -/

/-- What distribution of subhaloes over processes must not change: TrackId, rank and nest. -/
def linkData (s : Sub K D) : Int × Int × List Int := (s.trackId, s.rank, s.nested)

/-- The link data of all subhaloes of all processes. -/
def allLinks {P : Nat} (subs : Fin P → List (Sub K D)) : List (Int × Int × List Int) :=
  (List.ofFn (fun r => (subs r).map linkData)).flatten

/-- The situation when `NestSubhalos` is called: the subhaloes `prev` of the last snapshot have been
moved to the processes of their new hosts (`old`; particles, masses and hosts are new and arbitrary),
the table of their groups has been made and its lists possibly reordered (`groups`, `field`), and
`FeedCentrals` has appended one new subhalo for haloes without member (`new`). The number of processes may
have changed (if HBT was restarted). -/
structure Arrival {Q P : Nat} (prev : Fin Q → List (Sub K D)) (old new : Fin P → List (Sub K D)) (haloIds : Fin P → List Int)
    (groups : Fin P → List (List Nat)) (field order : Fin P → List Nat) : Prop where
  moved : (allLinks old).Perm (allLinks prev)
  hosts : ∀ r, ∀ s ∈ old r, -1 ≤ s.hostHaloId ∧ s.hostHaloId < (haloIds r).length
  halos : ∀ r, (haloIds r).Nodup ∧ (-1 : Int) ∉ haloIds r
  ngroups : ∀ r, (groups r).length = (haloIds r).length
  groups_ : ∀ r, ∀ (h : Nat) (g : List Nat), (groups r)[h]? = some g → g.Perm (membersOf true (old r) (h : Int))
  field_ : ∀ r, (field r).Perm (membersOf true (old r) (-1))
  born : ∀ r, ∀ s ∈ new r, s.trackId = nullTrack ∧ s.rank = 0 ∧ s.nested = [] ∧
    0 ≤ s.hostHaloId ∧ s.hostHaloId < (haloIds r).length ∧ ∀ u ∈ old r, u.hostHaloId ≠ s.hostHaloId
  bornHosts : ∀ r, ((new r).map Sub.hostHaloId).Nodup
  order_ : ∀ r, (order r).Perm (List.range (old r ++ new r).length)

/-- Masking, unbinding and merging happen between `NestSubhalos` and `UpdateTracks`. Of these steps
only this is used: they do not change ids, hosts, ranks and nests. -/
def Kept (s s' : Sub K D) : Prop :=
  s'.trackId = s.trackId ∧ s'.hostHaloId = s.hostHaloId ∧ s'.rank = s.rank ∧ s'.nested = s.nested

/-- All states after complete snapshots, for any number of processes, which may change between snapshots. `sortKeys` and `bsearch` are
those of the id table, `sortMass` the sort by mass, `chunk` the size of the broadcast buffer. -/
inductive History [LE K] [DecidableLE K] (chunk : Nat) (sortKeys : List (Int × Int) → List (Int × Int))
    (bsearch : Int → List (Int × Int) → Option (Int × Int)) (sortMass : List (Sub K D) → List Nat → List Nat) :
    {P : Nat} → (Fin P → List (Sub K D)) → Prop where
  | start {P : Nat} : History chunk sortKeys bsearch sortMass (P := P) (fun _ => [])
  | snapshot {Q P : Nat} (prev : Fin Q → List (Sub K D)) (old new mid out : Fin P → List (Sub K D)) (haloIds : Fin P → List Int)
      (groups : Fin P → List (List Nat)) (field order : Fin P → List Nat) (snap : Int)
      (res : Fin P → List (Sub K D) × List (List Nat))
      (hprev : History chunk sortKeys bsearch sortMass prev)
      (harr : Arrival prev old new haloIds groups field order)
      (hnest : nestSubhalos chunk sortKeys bsearch order groups field (fun r => old r ++ new r) = .ok res)
      (hmid : ∀ r, List.Forall₂ Kept (res r).1 (mid r))
      (hsink : ∀ r, ∀ s ∈ mid r, s.snapSink = snap → 0 ≤ s.sinkTrackId ∧ s.sinkTrackId < (old r).length)
      (hupd : updateTracks sortMass snap haloIds (fun r => (new r).length) (fun r => (res r).2) mid = .ok out) :
      History chunk sortKeys bsearch sortMass out

/-! ## One step -/

theorem mem_allLinks {P : Nat} {subs : Fin P → List (Sub K D)} {x : Int × Int × List Int} :
    x ∈ allLinks subs ↔ ∃ r, ∃ s ∈ subs r, linkData s = x := by
  unfold allLinks
  rw [List.mem_flatten]
  constructor
  · rintro ⟨l, hl, ht⟩
    obtain ⟨r, rfl⟩ := (List.mem_ofFn' _ _).1 hl
    obtain ⟨s, hs, e⟩ := List.mem_map.1 ht
    exact ⟨r, s, hs, e⟩
  · rintro ⟨r, s, hs, e⟩
    exact ⟨_, (List.mem_ofFn' _ _).2 ⟨r, rfl⟩, List.mem_map.2 ⟨s, hs, e⟩⟩

theorem allIds_links {P : Nat} (subs : Fin P → List (Sub K D)) :
    allIds subs = (allLinks subs).map (fun x => x.1) := by
  unfold allIds allLinks
  rw [List.map_flatten, List.map_ofFn]
  congr 2
  funext r
  simp [linkData, Function.comp_def]

/-- Moving subhaloes keeps the global hierarchy. -/
theorem linked_moved {Q P : Nat} {prev : Fin Q → List (Sub K D)} {old : Fin P → List (Sub K D)} {G : Forest Int} (h : Linked prev G)
    (hm : (allLinks old).Perm (allLinks prev)) : Linked old G := by
  have hids : (allIds old).Perm (allIds prev) := by
    rw [allIds_links, allIds_links]
    exact hm.map _
  have hget : ∀ x, (∃ r, ∃ s ∈ prev r, linkData s = x) → ∃ r, ∃ s ∈ old r, linkData s = x := fun x hx =>
    mem_allLinks.1 (hm.mem_iff.2 (mem_allLinks.2 hx))
  have hget' : ∀ x, (∃ r, ∃ s ∈ old r, linkData s = x) → ∃ r, ∃ s ∈ prev r, linkData s = x := fun x hx =>
    mem_allLinks.1 (hm.mem_iff.1 (mem_allLinks.2 hx))
  refine ⟨h.nodes.trans hids.symm, (hids.nodup_iff).2 h.nodup, fun t ht => h.nonneg t (hids.mem_iff.1 ht),
    shows_congr _ ?_ h.shows_, ?_⟩
  · rintro t _ l ⟨r, s, hs, rfl, rfl⟩
    obtain ⟨r', s', hs', e⟩ := hget _ ⟨r, s, hs, rfl⟩
    simp only [linkData, Prod.mk.injEq] at e
    exact ⟨r', s', hs', e.1, e.2.2⟩
  · intro r s hs
    obtain ⟨r', s', hs', e⟩ := hget' _ ⟨r, s, hs, rfl⟩
    simp only [linkData, Prod.mk.injEq] at e
    rw [← e.1, ← e.2.1]
    exact h.rank r' s' hs'

theorem distinct_of_linked {P : Nat} {old new : Fin P → List (Sub K D)} {G : Forest Int} (h : Linked old G)
    (hnew : ∀ r, ∀ s ∈ new r, s.trackId = nullTrack) : DistinctTracks (fun r => old r ++ new r) := by
  have hget : ∀ (r : Fin P) (i : Nat) (s : Sub K D), (old r ++ new r)[i]? = some s → 0 ≤ s.trackId → (old r)[i]? = some s := by
    intro r i s hs h0
    by_cases hi : i < (old r).length
    · rwa [List.getElem?_append_left hi] at hs
    · rw [List.getElem?_append_right (by omega)] at hs
      have := hnew r s (List.mem_of_getElem? hs)
      unfold nullTrack at this
      omega
  intro r r' i j s t hs ht e h0
  exact allIds_inj h.nodup (hget r i s hs h0) (hget r' j t ht (by omega)) e

theorem framed_same {s s' : Sub K D} (h : Framed s s') : s'.trackId = s.trackId ∧ s'.hostHaloId = s.hostHaloId := by
  unfold Framed at h
  rw [h]
  exact ⟨rfl, rfl⟩

/-- `NestSubhalos` in the situation `Arrival`: it succeeds, changes only ranks and nests, and leaves on
each process a forest whose trees stay inside one host. -/
theorem nest_step {Q P : Nat} (chunk : Nat) (hc : 0 < chunk) {sortKeys : List (Int × Int) → List (Int × Int)}
    {bsearch : Int → List (Int × Int) → Option (Int × Int)} (hs : SortSpec sortKeys) (hb : BsearchSpec bsearch)
    {prev : Fin Q → List (Sub K D)} {old new : Fin P → List (Sub K D)} {haloIds : Fin P → List Int}
    {groups : Fin P → List (List Nat)} {field order : Fin P → List Nat}
    (harr : Arrival prev old new haloIds groups field order) {G : Forest Int} (hG : Linked prev G) :
    ∃ res, nestSubhalos chunk sortKeys bsearch order groups field (fun r => old r ++ new r) = .ok res ∧
      ∀ r, (AllFramed (old r ++ new r) (res r).1 ∧ (∃ F, HostForest (res r).1 F) ∧
        (res r).2 = (groups r).map (fun g => g.filter (isTop (res r).1))) ∧
        ∀ c ∈ centralsOf (groups r), isTop (res r).1 c = true := by
  classical
  have hL := linked_moved hG harr.moved
  obtain ⟨out, e, hlen, hout⟩ := C47_localize chunk hc hs hb (fun r => old r ++ new r)
    (distinct_of_linked hL (fun r s hs => (harr.born r s hs).1)) (by
      intro r s hs' t ht
      rw [List.mem_append] at hs'
      rcases hs' with hs' | hs'
      · exact hL.nonneg t (hL.nested_mem hs' ht)
      · rw [(harr.born r s hs').2.2.1] at ht
        cases ht)
  have hframe : ∀ r, AllFramed (old r ++ new r) (out r) := by
    intro r
    rw [allFramed_iff]
    refine ⟨hlen r, fun i s hs' => ?_⟩
    obtain ⟨l, h1, _⟩ := hout r i s hs'
    exact ⟨_, h1, rfl⟩
  have hper : ∀ r, ∃ x : List (Sub K D) × List (List Nat), (do
      let s ← levelUpDetached (out r).length (order r) (groups r) (field r) (out r)
      let heads ← headGroups s (groups r)
      .ok (s, heads)) = Outcome.ok x ∧ (AllFramed (old r ++ new r) x.1 ∧ (∃ F, HostForest x.1 F) ∧
        x.2 = (groups r).map (fun g => g.filter (isTop x.1))) ∧
        ∀ c ∈ centralsOf (groups r), isTop x.1 c = true := by
    intro r
    obtain ⟨F, hF⟩ := localized_forest hL (fun r s hs => ⟨(harr.born r s hs).1, (harr.born r s hs).2.1, (harr.born r s hs).2.2.1⟩)
      hlen (by
        intro r i s hs'
        obtain ⟨l, h1, h2⟩ := hout r i s hs'
        refine ⟨l, ⟨_, h1, rfl, ?_⟩, h2⟩
        simp only [Sub.withRank_rank]
        by_cases hz : 0 ≤ s.trackId ∧ ∃ q, q ≠ r ∧ ∃ u ∈ old q ++ new q, s.trackId ∈ u.nested
        · rw [if_pos hz]
          exact ⟨fun _ => Or.inr hz, fun _ => rfl⟩
        · rw [if_neg hz]
          exact ⟨Or.inl, fun h => h.resolve_right hz⟩) r
    have hlt : ∀ g ∈ groups r, ∀ i ∈ g, i < (old r ++ new r).length := by
      intro g hg i hi
      obtain ⟨h, hh⟩ := List.getElem?_of_mem hg
      have := membersOf_lt _ _ _ i ((harr.groups_ r h g hh).mem_iff.1 hi)
      rw [List.length_append]
      omega
    have hhost : ∀ (i : Nat) (s' : Sub K D), (out r)[i]? = some s' → ∃ s, (old r ++ new r)[i]? = some s ∧
        s'.hostHaloId = s.hostHaloId := by
      intro i s' hs'
      obtain ⟨s, h1, h2⟩ := forall₂_get' (hframe r) i s' hs'
      exact ⟨s, h1, (framed_same h2).2⟩
    obtain ⟨s', F', e1, f1, hF', hcen⟩ := levelUpDetached_ok (out r).length (order r) (groups r) (field r) (out r) F hF
      (le_refl _) (by rw [hlen r]; exact harr.order_ r) (by
        intro g hg i hi
        rw [hlen r]
        exact hlt g hg i hi) (by
        intro i
        rw [(harr.field_ r).mem_iff, mem_membersOf]
        constructor
        · rintro ⟨s, hs', he, _⟩
          have hil := (List.getElem?_eq_some_iff.1 hs').1
          obtain ⟨b, hb', hfr⟩ := forall₂_get (hframe r) i s (by rw [List.getElem?_append_left hil, hs'])
          exact ⟨b, hb', by rw [(framed_same hfr).2, he]; rfl⟩
        · rintro ⟨b, hb', he⟩
          obtain ⟨s, h1, h2⟩ := hhost i b hb'
          by_cases hil : i < (old r).length
          · rw [List.getElem?_append_left hil] at h1
            exact ⟨s, h1, by rw [← h2, he]; rfl, Or.inl rfl⟩
          · rw [List.getElem?_append_right (by omega)] at h1
            have := (harr.born r s (List.mem_of_getElem? h1)).2.2.2.1
            rw [← h2, he] at this
            unfold nullHalo at this
            omega)
    have hframe' : AllFramed (old r ++ new r) s' := by
      rw [allFramed_iff] at f1 ⊢
      have h0 := allFramed_iff.1 (hframe r)
      refine ⟨by rw [f1.1, h0.1], fun i s hs' => ?_⟩
      obtain ⟨b, hb1, hb2⟩ := h0.2 i s hs'
      obtain ⟨c, hc1, hc2⟩ := f1.2 i b hb1
      exact ⟨c, hc1, hb2.trans hc2⟩
    have hl' : s'.length = (old r ++ new r).length := (allFramed_iff.1 hframe').1
    refine ⟨(s', (groups r).map (fun g => g.filter (isTop s'))), ?_, ⟨hframe', ⟨F', hF'⟩, rfl⟩, ?_⟩
    case refine_2 =>
      intro c hc'
      have hcl : c < s'.length := hF'.mem.1 (roots_subset _ (hcen c hc'))
      have := (hF'.rank c _ (List.getElem?_eq_getElem hcl)).2 (hcen c hc')
      simp [isTop, hcl, this]
    rw [e1, Outcome.bind_ok, headGroups_ok s' (groups r) (by
      intro g hg i hi
      rw [hl']
      exact hlt g hg i hi), Outcome.bind_ok]
  choose res hres hrest using hper
  refine ⟨res, ?_, hrest⟩
  rw [nestSubhalos, e, Outcome.bind_ok]
  exact allRanks_ok _ res hres

theorem numbered_get (l : List (Sub K D)) (o : Int) (j : Nat) (s : Sub K D) (h : (numbered l o)[j]? = some s) :
    ∃ s0, l[j]? = some s0 ∧ s = withId s0 (o + j) := by
  unfold numbered at h
  rw [List.getElem?_mapIdx] at h
  cases hl : l[j]? with
  | none => rw [hl] at h; cases h
  | some s0 => rw [hl] at h; cases h; exact ⟨s0, rfl, rfl⟩

theorem numbered_hosts (l : List (Sub K D)) (o : Int) : (numbered l o).map Sub.hostHaloId = l.map Sub.hostHaloId := by
  apply List.ext_getElem?
  intro j
  unfold numbered
  rw [List.getElem?_map, List.getElem?_mapIdx, List.getElem?_map]
  cases l[j]? <;> rfl

/-- After registration each group of the new table can be extended with the heads found before. -/
theorem canExtend_all {R M old new out1 : List (Sub K D)} {nh : Nat} {groups : List (List Nat)} {o : Int}
    (hfr : AllFramed (old ++ new) R) {F : Forest Nat} (hF : HostForest R F) (hM : List.Forall₂ Kept R M)
    (hng : groups.length = nh)
    (hgroups : ∀ (h : Nat) (g : List Nat), groups[h]? = some g → g.Perm (membersOf true old (h : Int)))
    (hborn : ∀ s ∈ new, ∀ u ∈ old, u.hostHaloId ≠ s.hostHaloId)
    (hbh : (new.map Sub.hostHaloId).Nodup)
    (hout1 : out1 = M.take old.length ++ numbered (resolved (M.drop old.length)) o) :
    ∀ gs : List (List Nat), gs.length = nh →
      (∀ (h : Nat) (g : List Nat), gs[h]? = some g → g.Perm (membersOf true out1 (h : Int))) →
      List.Forall₂ (CanExtend out1) gs (groups.map (fun g => g.filter (isTop R))) := by
  have hRlen : R.length = (old ++ new).length := (allFramed_iff.1 hfr).1
  have hMlen : M.length = (old ++ new).length := by rw [← hM.length_eq, hRlen]
  have hA : ∀ (i : Nat) (m : Sub K D), M[i]? = some m → ∃ s b, (old ++ new)[i]? = some s ∧ R[i]? = some b ∧
      m.hostHaloId = s.hostHaloId ∧ b.hostHaloId = s.hostHaloId ∧ m.rank = b.rank ∧ m.nested = b.nested := by
    intro i m hm
    obtain ⟨b, hb, hk⟩ := forall₂_get' hM i m hm
    obtain ⟨s, hs, hf⟩ := forall₂_get' hfr i b hb
    exact ⟨s, b, hs, hb, by rw [hk.2.1, (framed_same hf).2], (framed_same hf).2, hk.2.2.1, hk.2.2.2⟩
  have hmapH : M.map Sub.hostHaloId = (old ++ new).map Sub.hostHaloId := by
    apply List.ext_getElem?
    intro i
    rw [List.getElem?_map, List.getElem?_map]
    cases hm : M[i]? with
    | none =>
      rw [List.getElem?_eq_none_iff] at hm
      rw [List.getElem?_eq_none (by omega)]
    | some m =>
      obtain ⟨s, b, h1, _, h3, _⟩ := hA i m hm
      rw [h1, Option.map_some, Option.map_some, h3]
  have hdropH : (M.drop old.length).map Sub.hostHaloId = new.map Sub.hostHaloId := by
    rw [← List.map_drop.symm, hmapH, ← List.map_drop, List.drop_left]
  -- entries of out1
  have hlow : ∀ i : Nat, i < old.length → out1[i]? = M[i]? := by
    intro i hi
    have : i < (M.take old.length).length := by
      rw [List.length_take, hMlen, List.length_append]; omega
    rw [hout1, List.getElem?_append_left this, List.getElem?_take_of_lt hi]
  have htl : (M.take old.length).length = old.length := by
    rw [List.length_take, hMlen, List.length_append]; omega
  have hhigh : ∀ (i : Nat) (s : Sub K D), old.length ≤ i → out1[i]? = some s →
      (numbered (resolved (M.drop old.length)) o)[i - old.length]? = some s := by
    intro i s hi hs
    rw [hout1, List.getElem?_append_right (by omega), htl] at hs
    exact hs
  -- nests of the new ones
  have hnewnest : ∀ m ∈ M.drop old.length, m.nested = [] := by
    intro m hm
    obtain ⟨j, hj⟩ := List.getElem?_of_mem hm
    rw [List.getElem?_drop] at hj
    obtain ⟨s, b, h1, h2, h3, h4, _, h6⟩ := hA _ m hj
    rw [List.getElem?_append_right (by omega), Nat.add_sub_cancel_left] at h1
    have hmem : old.length + j ∈ F.nodes := hF.mem.2 (List.getElem?_eq_some_iff.1 h2).1
    obtain ⟨l, hl⟩ := shows_mem hF.shows_ hmem
    have hl' := hl
    obtain ⟨b', hb', hbn⟩ := hl'
    rw [h2] at hb'
    cases hb'
    rw [h6, hbn]
    cases l with
    | nil => rfl
    | cons x l =>
      exfalso
      have hch := kids_isChild (idxKids_unique R) hl (List.mem_cons_self) hF.shows_ hmem
      obtain ⟨u, v, hu, hv, he⟩ := (edges_iff _ F).1 hF.edges _ _ hch
      rw [h2] at hu
      cases hu
      obtain ⟨w, hw, hwf⟩ := forall₂_get' hfr x v hv
      have hwh : w.hostHaloId = s.hostHaloId := by rw [← (framed_same hwf).2, he, h4]
      by_cases hx : x < old.length
      · rw [List.getElem?_append_left hx] at hw
        exact hborn s (List.mem_of_getElem? h1) w (List.mem_of_getElem? hw) hwh
      · rw [List.getElem?_append_right (by omega)] at hw
        have hjl : j < (new.map Sub.hostHaloId).length := by
          rw [List.length_map]; exact (List.getElem?_eq_some_iff.1 h1).1
        have := (List.getElem?_inj hjl hbh (j := x - old.length)).1 (by
          rw [List.getElem?_map, List.getElem?_map, h1, hw, Option.map_some, Option.map_some, hwh])
        have hxe : x = old.length + j := by omega
        rw [hxe] at hch
        exact not_self_child hF.nodup hch
  intro gs hgl hgs
  rw [List.forall₂_iff_get]
  refine ⟨by rw [hgl, List.length_map, hng], ?_⟩
  intro h h1 h2
  have h3 : h < groups.length := by rw [List.length_map] at h2; exact h2
  simp only [List.get_eq_getElem, List.getElem_map]
  have hg := hgs h _ (List.getElem?_eq_getElem h1)
  have hg0 := hgroups h _ (List.getElem?_eq_getElem h3)
  generalize gs[h] = g at hg
  generalize groups[h] = g0 at hg0
  have hgnd : g.Nodup := (hg.nodup_iff).2 (membersOf_nodup _ _ _)
  have hmem : ∀ i, i ∈ g ↔ ∃ s, out1[i]? = some s ∧ s.hostHaloId = (h : Int) := by
    intro i
    rw [hg.mem_iff, mem_membersOf]
    simp
  have hmem0 : ∀ i, i ∈ g0 ↔ ∃ s, old[i]? = some s ∧ s.hostHaloId = (h : Int) := by
    intro i
    rw [hg0.mem_iff, mem_membersOf]
    simp
  by_cases hold : ∃ u ∈ old, u.hostHaloId = (h : Int)
  · -- a group with members of the last snapshot
    left
    obtain ⟨u, hu, hue⟩ := hold
    have hgold : ∀ i, i ∈ g → i < old.length := by
      intro i hi
      by_contra hlt
      obtain ⟨s, hs, he⟩ := (hmem i).1 hi
      have hs' := hhigh i s (by omega) hs
      have hm : s.hostHaloId ∈ (numbered (resolved (M.drop old.length)) o).map Sub.hostHaloId :=
        List.mem_map.2 ⟨s, List.mem_of_getElem? hs', rfl⟩
      rw [numbered_hosts] at hm
      have hm2 : s.hostHaloId ∈ (M.drop old.length).map Sub.hostHaloId := by
        obtain ⟨x, hx, hxe⟩ := List.mem_map.1 hm
        exact List.mem_map.2 ⟨x, (List.mem_filter.1 hx).1, hxe⟩
      rw [hdropH] at hm2
      obtain ⟨x, hx, hxe⟩ := List.mem_map.1 hm2
      exact hborn x hx u hu (by rw [hue, hxe, he])
    have hgR : ∀ i, i ∈ g ↔ ∃ b, R[i]? = some b ∧ b.hostHaloId = (h : Int) := by
      intro i
      constructor
      · intro hi
        obtain ⟨s, hs, he⟩ := (hmem i).1 hi
        rw [hlow i (hgold i hi)] at hs
        obtain ⟨s0, b, _, q2, q3, q4, _⟩ := hA i s hs
        exact ⟨b, q2, by rw [q4, ← q3, he]⟩
      · rintro ⟨b, hb, he⟩
        obtain ⟨s, hs, hf⟩ := forall₂_get' hfr i b hb
        have hse : s.hostHaloId = (h : Int) := by rw [← (framed_same hf).2, he]
        have hil : i < old.length := by
          by_contra hlt
          rw [List.getElem?_append_right (by omega)] at hs
          exact hborn s (List.mem_of_getElem? hs) u hu (by rw [hue, hse])
        obtain ⟨m, hm, hk⟩ := forall₂_get hM i b hb
        exact (hmem i).2 ⟨m, by rw [hlow i hil, hm], by rw [hk.2.1, he]⟩
    have hg0R : ∀ i, i ∈ g0 ↔ i ∈ g := by
      intro i
      rw [hmem0, hgR]
      constructor
      · rintro ⟨s, hs, he⟩
        have hil := (List.getElem?_eq_some_iff.1 hs).1
        obtain ⟨b, hb, hf⟩ := forall₂_get hfr i s (by rw [List.getElem?_append_left hil, hs])
        exact ⟨b, hb, by rw [(framed_same hf).2, he]⟩
      · rintro ⟨b, hb, he⟩
        have hil := hgold i ((hgR i).2 ⟨b, hb, he⟩)
        obtain ⟨s, hs, hf⟩ := forall₂_get' hfr i b hb
        rw [List.getElem?_append_left hil] at hs
        exact ⟨s, hs, by rw [← (framed_same hf).2, he]⟩
    let hostAt : Nat → Option Int := fun i => (R[i]?).map Sub.hostHaloId
    have hE : F.Edges (fun a c => hostAt c = hostAt a) := by
      refine edges_imp F ?_ hF.edges
      rintro a _ c _ ⟨s, t, hs', ht', he⟩
      simp only [hostAt, hs', ht', Option.map_some, he]
    have hat : ∀ i, hostAt i = some (h : Int) ↔ i ∈ g := by
      intro i
      rw [hgR]
      simp only [hostAt, Option.map_eq_some_iff]
    have hnodes := filterRoots_nodes hostAt F hE (some (h : Int))
    refine ⟨filterRoots (fun a => decide (hostAt a = some (h : Int))) F, hgnd, ?_, ?_, ?_, ?_, ?_⟩
    · rw [hnodes]
      refine (List.perm_ext_iff_of_nodup (hF.nodup.filter _) hgnd).2 ?_
      intro i
      rw [List.mem_filter, decide_eq_true_iff, hat]
      constructor
      · exact fun h => h.2
      · intro hi
        obtain ⟨b, hb, _⟩ := (hgR i).1 hi
        exact ⟨hF.mem.2 (List.getElem?_eq_some_iff.1 hb).1, hi⟩
    · rw [filterRoots_roots]
      refine (List.perm_ext_iff_of_nodup (((roots_sublist F).nodup hF.nodup).filter _)
        (((hg0.nodup_iff).2 (membersOf_nodup _ _ _)).filter _)).2 ?_
      intro i
      rw [List.mem_filter, List.mem_filter, decide_eq_true_iff, hat, hg0R]
      constructor
      · rintro ⟨hr, hi⟩
        obtain ⟨b, hb, _⟩ := (hgR i).1 hi
        exact ⟨hi, by simp [isTop, hb, (hF.rank i b hb).2 hr]⟩
      · rintro ⟨hi, ht⟩
        obtain ⟨b, hb, _⟩ := (hgR i).1 hi
        refine ⟨(hF.rank i b hb).1 ?_, hi⟩
        simpa [isTop, hb] using ht
    · refine shows_congr _ ?_ (filterRoots_shows _ F hF.shows_)
      rintro a ha l ⟨b, hb, hbn⟩
      rw [hnodes, List.mem_filter, decide_eq_true_iff, hat] at ha
      obtain ⟨m, hm, hk⟩ := forall₂_get hM a b hb
      exact ⟨m, by rw [hlow a (hgold a ha.2), hm], by rw [hk.2.2.2, hbn]⟩
    · refine edges_imp _ ?_ (filterRoots_edges _ F hF.edges)
      rintro a ha c hc' ⟨s, t, hs', ht', he⟩
      rw [hnodes, List.mem_filter, decide_eq_true_iff, hat] at ha hc'
      obtain ⟨m, hm, hk⟩ := forall₂_get hM a s hs'
      obtain ⟨m', hm', hk'⟩ := forall₂_get hM c t ht'
      exact ⟨m, m', by rw [hlow a (hgold a ha.2), hm], by rw [hlow c (hgold c hc'.2), hm'], by rw [hk'.2.1, hk.2.1, he]⟩
    · intro i hi
      obtain ⟨b, hb, _⟩ := (hgR i).1 hi
      obtain ⟨m, hm, hk⟩ := forall₂_get hM i b hb
      refine ⟨m, by rw [hlow i (hgold i hi), hm], ?_⟩
      rw [hk.2.2.1, hF.rank i b hb, filterRoots_roots, List.mem_filter, decide_eq_true_iff, hat]
      exact ⟨fun h => ⟨h, hi⟩, fun h => h.1⟩
  · -- at most one new subhalo
    right
    have hge : ∀ i ∈ g, old.length ≤ i := by
      intro i hi
      by_contra hlt
      obtain ⟨s, hs, he⟩ := (hmem i).1 hi
      rw [hlow i (by omega)] at hs
      obtain ⟨s0, b, q1, _, q3, _⟩ := hA i s hs
      rw [List.getElem?_append_left (by omega)] at q1
      exact hold ⟨s0, List.mem_of_getElem? q1, by rw [← q3, he]⟩
    have hnn : ((numbered (resolved (M.drop old.length)) o).map Sub.hostHaloId).Nodup := by
      rw [numbered_hosts]
      refine List.Nodup.sublist (List.Sublist.map _ List.filter_sublist) ?_
      rw [hdropH]
      exact hbh
    have huniq : ∀ i ∈ g, ∀ j ∈ g, i = j := by
      intro i hi j hj
      obtain ⟨s, hs, he⟩ := (hmem i).1 hi
      obtain ⟨s', hs', he'⟩ := (hmem j).1 hj
      have a1 := hhigh i s (hge i hi) hs
      have a2 := hhigh j s' (hge j hj) hs'
      have hl : i - old.length < ((numbered (resolved (M.drop old.length)) o).map Sub.hostHaloId).length := by
        rw [List.length_map]; exact (List.getElem?_eq_some_iff.1 a1).1
      have := (List.getElem?_inj hl hnn (j := j - old.length)).1 (by
        rw [List.getElem?_map, List.getElem?_map, a1, a2, Option.map_some, Option.map_some, he, he'])
      have := hge i hi
      have := hge j hj
      omega
    match g, hgnd, hmem, hge, huniq with
    | [], _, _, _, _ => exact Or.inl rfl
    | [c], _, hmem, hge, _ =>
      right
      obtain ⟨s, hs, he⟩ := (hmem c).1 (by simp)
      have a1 := hhigh c s (hge c (by simp)) hs
      obtain ⟨s0, h0, rfl⟩ := numbered_get _ _ _ _ a1
      exact ⟨c, _, rfl, hs, hnewnest s0 (List.mem_filter.1 (List.mem_of_getElem? h0)).1⟩
    | c :: c' :: _, hnd, _, _, huniq =>
      exfalso
      have := huniq c (by simp) c' (by simp)
      rw [this] at hnd
      simp at hnd

/-- The invariant of all histories. -/
def Sound {P : Nat} (s : Fin P → List (Sub K D)) : Prop :=
  (∃ G, Linked s G) ∧ (∃ N, Dense s N) ∧ ∀ r, Hierarchy (s r)

/-- What `UpdateTracks` needs of the subhaloes of a process after registration. -/
structure Registered (snap : Int) (haloIds : List Int) (heads : List (List Nat)) (reg : List (Sub K D)) : Prop where
  hosts : ∀ s ∈ reg, -1 ≤ s.hostHaloId ∧ s.hostHaloId < haloIds.length
  ids : (reg.map Sub.trackId).Nodup
  extends_ : ∀ gs : List (List Nat), gs.length = haloIds.length →
    (∀ (h : Nat) (g : List Nat), gs[h]? = some g → g.Perm (membersOf true reg (h : Int))) → List.Forall₂ (CanExtend reg) gs heads
  field : ∀ s ∈ reg, s.hostHaloId = -1 → s.nested = []
  sink : ∀ s ∈ reg, s.snapSink = snap → 0 ≤ s.sinkTrackId ∧ s.sinkTrackId < reg.length

/-- The registration of new tracks in `UpdateTracks`. -/
theorem register_step {Q P : Nat} {prev : Fin Q → List (Sub K D)} {old new mid : Fin P → List (Sub K D)} {haloIds : Fin P → List Int}
    {groups : Fin P → List (List Nat)} {field order : Fin P → List Nat} (snap : Int)
    {res : Fin P → List (Sub K D) × List (List Nat)}
    (harr : Arrival prev old new haloIds groups field order)
    {N : Nat} (hN : Dense prev N)
    (hres : ∀ r, AllFramed (old r ++ new r) (res r).1 ∧ (∃ F, HostForest (res r).1 F) ∧
        (res r).2 = (groups r).map (fun g => g.filter (isTop (res r).1)))
    (hmid : ∀ r, List.Forall₂ Kept (res r).1 (mid r))
    (hsink : ∀ r, ∀ s ∈ mid r, s.snapSink = snap → 0 ≤ s.sinkTrackId ∧ s.sinkTrackId < (old r).length) :
    ∃ out1, registerNewTracks mid (fun r => (new r).length) = .ok out1 ∧
      (∀ r, out1 r = (mid r).take (old r).length ++
        numbered (resolved ((mid r).drop (old r).length)) ((N + birthsBefore mid (fun r => (new r).length) r : Nat) : Int)) ∧
      (∃ M, Dense out1 M) ∧ ∀ r, Registered snap (haloIds r) (res r).2 (out1 r) := by
  have hlen : ∀ r, (mid r).length = (old r).length + (new r).length := by
    intro r
    rw [← (hmid r).length_eq, (allFramed_iff.1 (hres r).1).1, List.length_append]
  have hnold : ∀ r, (mid r).length - (new r).length = (old r).length := fun r => by rw [hlen r]; omega
  have hback : ∀ r (i : Nat) (m : Sub K D), (mid r)[i]? = some m → ∃ s b, (old r ++ new r)[i]? = some s ∧
      (res r).1[i]? = some b ∧ m.trackId = s.trackId ∧ m.hostHaloId = s.hostHaloId ∧ b.hostHaloId = s.hostHaloId ∧
      m.nested = b.nested := by
    intro r i m hm
    obtain ⟨b, hb, hk⟩ := forall₂_get' (hmid r) i m hm
    obtain ⟨s, hs, hf⟩ := forall₂_get' (hres r).1 i b hb
    exact ⟨s, b, hs, hb, by rw [hk.1, (framed_same hf).1], by rw [hk.2.1, (framed_same hf).2], (framed_same hf).2,
      hk.2.2.2⟩
  have hdense : Dense (fun r => (mid r).take ((mid r).length - (new r).length)) N := by
    unfold Dense
    have : allIds (fun r => (mid r).take ((mid r).length - (new r).length)) = allIds old := by
      unfold allIds
      congr 2
      funext r
      simp only
      rw [hnold r]
      apply List.ext_getElem?
      intro i
      rw [List.getElem?_map, List.getElem?_map]
      by_cases hi : i < (old r).length
      · rw [List.getElem?_take_of_lt hi]
        have him : i < (mid r).length := by rw [hlen r]; omega
        obtain ⟨s, b, h1, _, h3, _⟩ := hback r i _ (List.getElem?_eq_getElem him)
        rw [List.getElem?_append_left hi] at h1
        rw [List.getElem?_eq_getElem him, h1, Option.map_some, Option.map_some, h3]
      · rw [List.getElem?_eq_none (by rw [List.length_take]; omega), List.getElem?_eq_none (by omega)]
    rw [this]
    refine List.Perm.trans ?_ hN
    rw [allIds_links, allIds_links]
    exact harr.moved.map _
  obtain ⟨out1, e1, hout1, hd1⟩ := C21_register mid (fun r => (new r).length) (fun r => by rw [hlen r]; omega) N hdense
  simp only [hnold] at hout1
  have hnodup1 : (allIds out1).Nodup := by
    have := hd1
    unfold Dense at this
    rw [this.nodup_iff]
    exact List.nodup_range.map (fun a b h => by exact_mod_cast h)
  have hmem1 : ∀ r, ∀ s ∈ out1 r, ∃ (i : Nat) (m : Sub K D), (mid r)[i]? = some m ∧ s.hostHaloId = m.hostHaloId ∧
      s.nested = m.nested ∧ s.snapSink = m.snapSink ∧ s.sinkTrackId = m.sinkTrackId := by
    intro r s hs
    rw [hout1 r, List.mem_append] at hs
    rcases hs with hs | hs
    · obtain ⟨i, hi⟩ := List.getElem?_of_mem (List.mem_of_mem_take hs)
      exact ⟨i, s, hi, rfl, rfl, rfl, rfl⟩
    · obtain ⟨j, hj⟩ := List.getElem?_of_mem hs
      obtain ⟨s0, h0, rfl⟩ := numbered_get _ _ _ _ hj
      have hm := (List.mem_filter.1 (List.mem_of_getElem? h0)).1
      obtain ⟨i, hi⟩ := List.getElem?_of_mem (List.mem_of_mem_drop hm)
      exact ⟨i, s0, hi, rfl, rfl, rfl, rfl⟩
  refine ⟨out1, e1, hout1, ⟨_, hd1⟩, fun r => ?_⟩
  obtain ⟨hfr, ⟨F, hF⟩, hheads⟩ := hres r
  constructor
  · intro s hs
    obtain ⟨i, m, hm, e, _⟩ := hmem1 r s hs
    obtain ⟨s0, b, h1, _, _, h4, _⟩ := hback r i m hm
    rw [e, h4]
    by_cases hi : i < (old r).length
    · rw [List.getElem?_append_left hi] at h1
      exact harr.hosts r s0 (List.mem_of_getElem? h1)
    · rw [List.getElem?_append_right (by omega)] at h1
      have := harr.born r s0 (List.mem_of_getElem? h1)
      exact ⟨by omega, this.2.2.2.2.1⟩
  · unfold allIds at hnodup1
    rw [List.nodup_flatten] at hnodup1
    exact hnodup1.1 _ ((List.mem_ofFn' _ _).2 ⟨r, rfl⟩)
  · rw [hheads]
    exact canExtend_all hfr hF (hmid r) (harr.ngroups r) (harr.groups_ r)
      (fun s hs => (harr.born r s hs).2.2.2.2.2) (harr.bornHosts r) (hout1 r)
  · intro s hs hf
    obtain ⟨i, m, hm, e, en, _⟩ := hmem1 r s hs
    obtain ⟨s0, b, _, hb, _, h4, h5, h6⟩ := hback r i m hm
    rw [en, h6]
    exact (hF.field i b hb (by rw [h5, ← h4, ← e, hf]; rfl)).2
  · intro s hs hsn
    obtain ⟨i, m, hm, _, _, e3, e4⟩ := hmem1 r s hs
    have := hsink r m (List.mem_of_getElem? hm) (by rw [← e3, hsn])
    have hl : (old r).length ≤ (out1 r).length := by
      rw [hout1 r, List.length_append, List.length_take, hlen r]
      omega
    rw [e4]
    exact ⟨this.1, by omega⟩

/-- `UpdateTracks` after `NestSubhalos` and any steps in between that keep ids, hosts, ranks and nests:
it succeeds, and the invariant holds again. -/
theorem update_step_full [LinearOrder K] {Q P : Nat} {sortMass : List (Sub K D) → List Nat → List Nat}
    (hsort : SortsByMass sortMass)
    {prev : Fin Q → List (Sub K D)} {old new mid : Fin P → List (Sub K D)} {haloIds : Fin P → List Int}
    {groups : Fin P → List (List Nat)} {field order : Fin P → List Nat} (snap : Int)
    {res : Fin P → List (Sub K D) × List (List Nat)}
    (harr : Arrival prev old new haloIds groups field order) {G : Forest Int} (hG : Linked prev G)
    {N : Nat} (hN : Dense prev N)
    (hres : ∀ r, AllFramed (old r ++ new r) (res r).1 ∧ (∃ F, HostForest (res r).1 F) ∧
        (res r).2 = (groups r).map (fun g => g.filter (isTop (res r).1)))
    (hmid : ∀ r, List.Forall₂ Kept (res r).1 (mid r))
    (hsink : ∀ r, ∀ s ∈ mid r, s.snapSink = snap → 0 ≤ s.sinkTrackId ∧ s.sinkTrackId < (old r).length) :
    ∃ out out1, registerNewTracks mid (fun r => (new r).length) = .ok out1 ∧
      updateTracks sortMass snap haloIds (fun r => (new r).length) (fun r => (res r).2) mid = .ok out ∧
      Sound out ∧ ∀ r, out1 r = (mid r).take (old r).length ++
          numbered (resolved ((mid r).drop (old r).length)) ((N + birthsBefore mid (fun r => (new r).length) r : Nat) : Int) ∧
        List.Forall₂ (Renewed snap (haloIds r) (out1 r)) (out1 r) (out r) ∧ UpdateSteps sortMass snap (haloIds r) (res r).2 (out1 r) (out r) := by
  obtain ⟨out1, e1, hout1, ⟨M, hd1⟩, hreg⟩ := register_step snap harr hN hres hmid hsink
  have hnodup1 : (allIds out1).Nodup := by
    have := hd1
    unfold Dense at this
    rw [this.nodup_iff]
    exact List.nodup_range.map (fun a b h => by exact_mod_cast h)
  have hper : ∀ r, ∃ out, updateLocal sortMass snap (haloIds r) (res r).2 (out1 r) = .ok out ∧
      out.map Sub.trackId = (out1 r).map Sub.trackId ∧ Hierarchy out ∧ List.Forall₂ (Renewed snap (haloIds r) (out1 r)) (out1 r) out ∧
      (∃ G : Forest Int, G.nodes.Perm (out.map Sub.trackId) ∧ G.Shows (trackKids out) ∧
        ∀ s ∈ out, (s.rank = 0 ↔ s.trackId ∈ G.roots)) ∧ UpdateSteps sortMass snap (haloIds r) (res r).2 (out1 r) out := by
    intro r
    exact updateLocal_full hsort snap (haloIds r) (res r).2 (out1 r) (harr.halos r).1 (harr.halos r).2 (hreg r).hosts (hreg r).ids (hreg r).extends_
      (hreg r).field (hreg r).sink
  choose out e2 hids hH hU hGG hSteps using hper
  choose Gr hGn hGs hGr using hGG
  have hidsall : allIds out = allIds out1 := by
    unfold allIds
    congr 2
    funext r
    exact hids r
  refine ⟨out, out1, e1, ?_, ⟨⟨join (List.ofFn Gr), ?_, ?_, ?_, ?_, ?_⟩, ⟨_, (by unfold Dense; rw [hidsall]; exact hd1)⟩, hH⟩,
    fun r => ⟨hout1 r, hU r, hSteps r⟩⟩
  · rw [updateTracks, e1, Outcome.bind_ok]
    exact allRanks_ok _ out e2
  · rw [join_nodes]
    unfold allIds
    rw [List.map_ofFn, List.ofFn_eq_map, List.ofFn_eq_map]
    apply List.Perm.flatten_congr
    rw [List.forall₂_map_left_iff, List.forall₂_map_right_iff]
    exact List.forall₂_same.2 (fun r _ => hGn r)
  · rw [hidsall]; exact hnodup1
  · intro t ht
    rw [hidsall] at ht
    have := (List.Perm.mem_iff hd1).1 ht
    obtain ⟨i, _, rfl⟩ := List.mem_map.1 this
    omega
  · refine join_shows _ ?_
    intro f hf
    obtain ⟨r, rfl⟩ := (List.mem_ofFn' _ _).1 hf
    exact shows_congr _ (fun a _ l hl => ⟨r, hl⟩) (hGs r)
  · intro r s hs
    rw [hGr r s hs, join_roots, List.mem_flatten]
    constructor
    · intro h
      exact ⟨_, List.mem_map.2 ⟨_, (List.mem_ofFn' _ _).2 ⟨r, rfl⟩, rfl⟩, h⟩
    · rintro ⟨l, hl, h⟩
      obtain ⟨f, hf, rfl⟩ := List.mem_map.1 hl
      obtain ⟨r', rfl⟩ := (List.mem_ofFn' _ _).1 hf
      have hm := (hGn r').mem_iff.1 (roots_subset _ h)
      obtain ⟨u, hu, he⟩ := List.mem_map.1 hm
      obtain ⟨i, hi, rfl⟩ := List.getElem_of_mem hs
      obtain ⟨j, hj, rfl⟩ := List.getElem_of_mem hu
      have hnd : (allIds out).Nodup := by rw [hidsall]; exact hnodup1
      obtain ⟨rfl, _⟩ := allIds_inj hnd (List.getElem?_eq_getElem hi) (List.getElem?_eq_getElem hj) he.symm
      exact h

/-- `UpdateTracks` after `NestSubhalos` and any steps in between that keep ids, hosts, ranks and nests:
it succeeds, and the invariant holds again. -/
theorem update_step [LinearOrder K] {Q P : Nat} {sortMass : List (Sub K D) → List Nat → List Nat}
    (hsort : SortsByMass sortMass)
    {prev : Fin Q → List (Sub K D)} {old new mid : Fin P → List (Sub K D)} {haloIds : Fin P → List Int}
    {groups : Fin P → List (List Nat)} {field order : Fin P → List Nat} (snap : Int)
    {res : Fin P → List (Sub K D) × List (List Nat)}
    (harr : Arrival prev old new haloIds groups field order) {G : Forest Int} (hG : Linked prev G)
    {N : Nat} (hN : Dense prev N)
    (hres : ∀ r, AllFramed (old r ++ new r) (res r).1 ∧ (∃ F, HostForest (res r).1 F) ∧
        (res r).2 = (groups r).map (fun g => g.filter (isTop (res r).1)))
    (hmid : ∀ r, List.Forall₂ Kept (res r).1 (mid r))
    (hsink : ∀ r, ∀ s ∈ mid r, s.snapSink = snap → 0 ≤ s.sinkTrackId ∧ s.sinkTrackId < (old r).length) :
    ∃ out, updateTracks sortMass snap haloIds (fun r => (new r).length) (fun r => (res r).2) mid = .ok out ∧
      Sound out ∧ ∀ r, ∃ reg, reg = (mid r).take (old r).length ++
          numbered (resolved ((mid r).drop (old r).length)) ((N + birthsBefore mid (fun r => (new r).length) r : Nat) : Int) ∧
        List.Forall₂ (Renewed snap (haloIds r) reg) reg (out r) := by
  obtain ⟨out, out1, _, h1, h2, h3⟩ := update_step_full hsort snap harr hG hN hres hmid hsink
  exact ⟨out, h1, h2, fun r => ⟨_, (h3 r).1, (h3 r).2.1⟩⟩

theorem sound_start {P : Nat} : Sound (fun _ : Fin P => ([] : List (Sub K D))) := by
  have h : allIds (fun _ : Fin P => ([] : List (Sub K D))) = [] := by
    rw [List.eq_nil_iff_forall_not_mem]
    intro t ht
    obtain ⟨r, s, hs, _⟩ := mem_allIds.1 ht
    cases hs
  refine ⟨⟨.nil, ?_, ?_, ?_, trivial, ?_⟩, ⟨0, ?_⟩, ?_⟩
  · rw [h]; exact List.Perm.refl _
  · rw [h]; exact List.nodup_nil
  · rw [h]; intro t ht; cases ht
  · intro r s hs; cases hs
  · unfold Dense; rw [h]; exact List.Perm.refl _
  · intro r; exact ⟨fun s hs => (by cases hs), fun s hs => (by cases hs)⟩

theorem history_sound [LinearOrder K] {P : Nat} {chunk : Nat} (hc : 0 < chunk)
    {sortKeys : List (Int × Int) → List (Int × Int)}
    {bsearch : Int → List (Int × Int) → Option (Int × Int)} (hs : SortSpec sortKeys) (hb : BsearchSpec bsearch)
    {sortMass : List (Sub K D) → List Nat → List Nat} (hsort : SortsByMass sortMass)
    {s : Fin P → List (Sub K D)} (h : History chunk sortKeys bsearch sortMass s) : Sound s := by
  induction h with
  | start => exact sound_start
  | snapshot prev old new mid out haloIds groups field order snap res _ harr hnest hmid hsink hupd ih =>
    obtain ⟨⟨G, hG⟩, ⟨N, hN⟩, _⟩ := ih
    obtain ⟨res', e, hres⟩ := nest_step chunk hc hs hb harr hG
    rw [hnest] at e
    cases e
    obtain ⟨out', e', hS, _⟩ := update_step hsort snap harr hG hN (fun r => (hres r).1) hmid hsink
    rw [hupd] at e'
    cases e'
    exact hS

/-- C26. After every snapshot of every history, on any number of processes and whatever the hosts,
masses and the distribution of subhaloes are: on each process, the members of every host form one
tree (child lists = nests) that has each member exactly once, its root is the member of rank 0, and
the recorded depths are the levels in this tree; a subhalo without host has rank 0 and an empty
nest. -/
theorem C26_hierarchy [LinearOrder K] {P : Nat} {chunk : Nat} (hc : 0 < chunk)
    {sortKeys : List (Int × Int) → List (Int × Int)}
    {bsearch : Int → List (Int × Int) → Option (Int × Int)} (hs : SortSpec sortKeys) (hb : BsearchSpec bsearch)
    {sortMass : List (Sub K D) → List Nat → List Nat} (hsort : SortsByMass sortMass)
    {s : Fin P → List (Sub K D)} (h : History chunk sortKeys bsearch sortMass s) (r : Fin P) : Hierarchy (s r) :=
  (history_sound hc hs hb hsort h).2.2 r

/-- C26. The nesting code never reaches undefined behaviour and its recursions end: from every state
of every history, for all new hosts, groups and orders of the parallel iterations. -/
theorem C26_never_fails [LinearOrder K] {P : Nat} {chunk : Nat} (hc : 0 < chunk)
    {sortKeys : List (Int × Int) → List (Int × Int)}
    {bsearch : Int → List (Int × Int) → Option (Int × Int)} (hs : SortSpec sortKeys) (hb : BsearchSpec bsearch)
    {sortMass : List (Sub K D) → List Nat → List Nat} (hsort : SortsByMass sortMass)
    {Q : Nat} {prev : Fin Q → List (Sub K D)} (hprev : History chunk sortKeys bsearch sortMass prev)
    (old new : Fin P → List (Sub K D)) (haloIds : Fin P → List Int)
    (groups : Fin P → List (List Nat)) (field order : Fin P → List Nat)
    (harr : Arrival prev old new haloIds groups field order) :
    ∃ res, nestSubhalos chunk sortKeys bsearch order groups field (fun r => old r ++ new r) = .ok res ∧
      ∀ (snap : Int) (mid : Fin P → List (Sub K D)), (∀ r, List.Forall₂ Kept (res r).1 (mid r)) →
        (∀ r, ∀ s ∈ mid r, s.snapSink = snap → 0 ≤ s.sinkTrackId ∧ s.sinkTrackId < (old r).length) →
        ∃ out, updateTracks sortMass snap haloIds (fun r => (new r).length) (fun r => (res r).2) mid = .ok out ∧
          History chunk sortKeys bsearch sortMass out := by
  obtain ⟨⟨G, hG⟩, ⟨N, hN⟩, _⟩ := history_sound hc hs hb hsort hprev
  obtain ⟨res, e, hres⟩ := nest_step chunk hc hs hb harr hG
  refine ⟨res, e, fun snap mid hmid hsink => ?_⟩
  obtain ⟨out, e', _⟩ := update_step hsort snap harr hG hN (fun r => (hres r).1) hmid hsink
  exact ⟨out, e', .snapshot prev old new mid out haloIds groups field order snap res hprev harr e hmid hsink e'⟩

/-- C26. During a snapshot (after `NestSubhalos`): every subhalo is either a head (rank 0) or in the
nest of exactly one other subhalo, which has the same host. -/
theorem C26_during_snapshot [LinearOrder K] {P : Nat} {chunk : Nat} (hc : 0 < chunk)
    {sortKeys : List (Int × Int) → List (Int × Int)}
    {bsearch : Int → List (Int × Int) → Option (Int × Int)} (hs : SortSpec sortKeys) (hb : BsearchSpec bsearch)
    {sortMass : List (Sub K D) → List Nat → List Nat} (hsort : SortsByMass sortMass)
    {Q : Nat} {prev : Fin Q → List (Sub K D)} (hprev : History chunk sortKeys bsearch sortMass prev)
    (old new : Fin P → List (Sub K D)) (haloIds : Fin P → List Int)
    (groups : Fin P → List (List Nat)) (field order : Fin P → List Nat)
    (harr : Arrival prev old new haloIds groups field order)
    (res : Fin P → List (Sub K D) × List (List Nat))
    (hres : nestSubhalos chunk sortKeys bsearch order groups field (fun r => old r ++ new r) = .ok res)
    (r : Fin P) (i : Nat) (s : Sub K D) (hi : (res r).1[i]? = some s) :
    (s.rank = 0 ∧ ∀ (j : Nat) (u : Sub K D), (res r).1[j]? = some u → (i : Int) ∉ u.nested) ∨
    (s.rank ≠ 0 ∧ ∃ (j : Nat) (u : Sub K D), (res r).1[j]? = some u ∧ (i : Int) ∈ u.nested ∧ u.hostHaloId = s.hostHaloId ∧
      ∀ (j' : Nat) (u' : Sub K D), (res r).1[j']? = some u' → (i : Int) ∈ u'.nested → j' = j) := by
  obtain ⟨⟨G, hG⟩, ⟨N, hN⟩, _⟩ := history_sound hc hs hb hsort hprev
  obtain ⟨res', e, hr⟩ := nest_step chunk hc hs hb harr hG
  rw [hres] at e
  cases e
  obtain ⟨⟨_, ⟨F, hF⟩, _⟩, _⟩ := hr r
  have hchild : ∀ (j : Nat) (u : Sub K D), (res r).1[j]? = some u → (i : Int) ∈ u.nested → IsChild j i F := by
    intro j u hu hm
    have hj : j ∈ F.nodes := hF.mem.2 (List.getElem?_eq_some_iff.1 hu).1
    obtain ⟨l, hl⟩ := shows_mem hF.shows_ hj
    have hl' := hl
    obtain ⟨u', hu', e⟩ := hl'
    rw [hu] at hu'
    cases hu'
    rw [e] at hm
    obtain ⟨x, hx, hxe⟩ := List.mem_map.1 hm
    have : x = i := by exact_mod_cast hxe
    subst this
    exact kids_isChild (idxKids_unique _) hl hx hF.shows_ hj
  by_cases h0 : s.rank = 0
  · left
    refine ⟨h0, fun j u hu hm => ?_⟩
    exact root_not_child hF.nodup ((hF.rank i s hi).1 h0) j (hchild j u hu hm)
  · right
    refine ⟨h0, ?_⟩
    have hmem : i ∈ F.nodes := hF.mem.2 (List.getElem?_eq_some_iff.1 hi).1
    rcases root_or_child hmem with h | ⟨j, hj⟩
    · exact absurd ((hF.rank i s hi).2 h) h0
    · obtain ⟨l, ⟨u, hu, hul⟩, hm⟩ := isChild_kids hF.shows_ hj
      obtain ⟨a, b, ha, hb', he⟩ := (edges_iff _ F).1 hF.edges _ _ hj
      rw [hu] at ha
      cases ha
      rw [hi] at hb'
      cases hb'
      refine ⟨j, u, hu, by rw [hul]; exact List.mem_map.2 ⟨i, hm, rfl⟩, he.symm, fun j' u' hu' hm' => ?_⟩
      exact isChild_unique hF.nodup (hchild j' u' hu' hm') hj

/-! ## A concrete history

Two processes and three snapshots: three subhaloes are born in three haloes (tracks 0 and 1 on process
0, track 2 on process 1); then all are in one halo on process 0; then track 2 leaves the halo and
becomes a field subhalo on process 1. -/

def okOr {α : Type} (x : Outcome α) (d : α) : α := match x with | .ok a => a | _ => d
def isOk {α : Type} (x : Outcome α) : Bool := match x with | .ok _ => true | _ => false
theorem ok_okOr {α : Type} {x : Outcome α} (d : α) (h : isOk x = true) : x = .ok (okOr x d) := by
  cases x <;> simp_all [isOk, okOr]

theorem arrival_of_checks {Q P : Nat} (prev : Fin Q → List (Sub K D)) (old new : Fin P → List (Sub K D)) (haloIds : Fin P → List Int)
    (groups : Fin P → List (List Nat)) (field order : Fin P → List Nat)
    (h1 : (allLinks old).Perm (allLinks prev))
    (h2 : ∀ r, ∀ s ∈ old r, -1 ≤ s.hostHaloId ∧ s.hostHaloId < (haloIds r).length)
    (h3 : ∀ r, (haloIds r).Nodup ∧ (-1 : Int) ∉ haloIds r)
    (h4 : ∀ r, (groups r).length = (haloIds r).length)
    (h5 : ∀ r, ∀ h < (groups r).length, ((groups r)[h]?.getD []).Perm (membersOf true (old r) (h : Int)))
    (h6 : ∀ r, (field r).Perm (membersOf true (old r) (-1)))
    (h7 : ∀ r, ∀ s ∈ new r, s.trackId = nullTrack ∧ s.rank = 0 ∧ s.nested = [] ∧
      0 ≤ s.hostHaloId ∧ s.hostHaloId < (haloIds r).length ∧ ∀ u ∈ old r, u.hostHaloId ≠ s.hostHaloId)
    (h8 : ∀ r, ((new r).map Sub.hostHaloId).Nodup)
    (h9 : ∀ r, (order r).Perm (List.range (old r ++ new r).length)) :
    Arrival prev old new haloIds groups field order :=
  ⟨h1, h2, h3, h4, fun r h g hg => by
    have := h5 r h (List.getElem?_eq_some_iff.1 hg).1
    rwa [hg, Option.getD_some] at this, h6, h7, h8, h9⟩

/-- An insertion sort by decreasing mass. -/
def exMassSort (subs : List (Sub ℚ D)) (l : List Nat) : List Nat :=
  l.insertionSort (fun i j => ((subs[j]?).map Sub.mbound).getD 0 ≤ ((subs[i]?).map Sub.mbound).getD 0)

theorem exMassSort_spec : SortsByMass (exMassSort (D := D)) := by
  intro subs l _
  refine ⟨List.perm_insertionSort _ _, ?_⟩
  haveI : Std.Total (fun i j : Nat => ((subs[j]?).map Sub.mbound).getD 0 ≤ ((subs[i]?).map Sub.mbound).getD 0) :=
    ⟨fun a b => le_total _ _⟩
  haveI : IsTrans Nat (fun i j : Nat => ((subs[j]?).map Sub.mbound).getD 0 ≤ ((subs[i]?).map Sub.mbound).getD 0) :=
    ⟨fun _ _ _ h h' => le_trans h' h⟩
  refine (List.pairwise_insertionSort _ l).imp (fun {a b} h x y hx hy => ?_)
  simpa [hx, hy] using h

abbrev S2 := Fin 2 → List (Sub ℚ Unit)
def pick {α : Type} (a b : α) : Fin 2 → α := fun r => if r = 0 then a else b
def exBorn (h : Int) : Sub ℚ Unit := { mbound := 0, lastMaxMass := 0, hostHaloId := h }
def massive (m : Nat) (s : Sub ℚ Unit) : Sub ℚ Unit := { s with nbound := m, mbound := m }
def inHalo (h : Int) (s : Sub ℚ Unit) : Sub ℚ Unit := { s with hostHaloId := h }
def exNest (order : Fin 2 → List Nat) (groups : Fin 2 → List (List Nat)) (field : Fin 2 → List Nat) (subs : S2) :=
  nestSubhalos 8 exKeySort exampleBsearch order groups field subs

def exS0 : S2 := fun _ => []
def exNew1 : S2 := pick [exBorn 0, exBorn 1] [exBorn 0]
def exRes1 := okOr (exNest (pick [1, 0] [0]) (pick [[], []] [[]]) (pick [] []) (fun r => exS0 r ++ exNew1 r)) (fun _ => ([], []))
def exMid1 : S2 := pick ((exRes1 0).1.zipWith (fun s m => massive m s) [5, 9]) ((exRes1 1).1.zipWith (fun s m => massive m s) [4])
def exU1 := updateTracks exMassSort 0 (pick [100, 101] [102]) (fun r => (exNew1 r).length) (fun r => (exRes1 r).2) exMid1
def exS1 : S2 := okOr exU1 (fun _ => [])

def exOld2 : S2 := pick ((exS1 0 ++ exS1 1).map (inHalo 0)) []
def exRes2 := okOr (exNest (pick [2, 0, 1] []) (pick [[1, 0, 2]] []) (pick [] []) (fun r => exOld2 r ++ exS0 r)) (fun _ => ([], []))
def exMid2 : S2 := fun r => (exRes2 r).1
def exU2 := updateTracks exMassSort 1 (pick [200] []) (fun r => (exS0 r).length) (fun r => (exRes2 r).2) exMid2
def exS2 : S2 := okOr exU2 (fun _ => [])

def exOld3 : S2 := pick (((exS2 0).take 2).map (inHalo 0)) (((exS2 0).drop 2).map (inHalo (-1)))
def exRes3 := okOr (exNest (pick [0, 1] [0]) (pick [[1, 0]] []) (pick [] [0]) (fun r => exOld3 r ++ exS0 r)) (fun _ => ([], []))
def exMid3 : S2 := fun r => (exRes3 r).1
def exU3 := updateTracks exMassSort 2 (pick [300] []) (fun r => (exS0 r).length) (fun r => (exRes3 r).2) exMid3
def exS3 : S2 := okOr exU3 (fun _ => [])

theorem kept_of_checks {l l' : List (Sub K D)} (h : l.map (fun s => (s.trackId, s.hostHaloId, s.rank, s.nested))
    = l'.map (fun s => (s.trackId, s.hostHaloId, s.rank, s.nested))) : List.Forall₂ Kept l l' := by
  induction l generalizing l' with
  | nil => cases l' with | nil => exact .nil | cons _ _ => simp at h
  | cons s l ih =>
    cases l' with
    | nil => simp at h
    | cons s' l' =>
      simp only [List.map_cons, List.cons.injEq, Prod.mk.injEq] at h
      exact .cons ⟨h.1.1.symm, h.1.2.1.symm, h.1.2.2.1.symm, h.1.2.2.2.symm⟩ (ih h.2)

theorem exHistory1 : History 8 exKeySort exampleBsearch exMassSort exS1 :=
  .snapshot exS0 exS0 exNew1 exMid1 exS1 (pick [100, 101] [102]) (pick [[], []] [[]]) (pick [] []) (pick [1, 0] [0]) 0 exRes1
    .start (arrival_of_checks _ _ _ _ _ _ _ (by decide +kernel) (by decide +kernel) (by decide +kernel) (by decide +kernel)
      (by decide +kernel) (by decide +kernel) (by decide +kernel) (by decide +kernel) (by decide +kernel))
    (ok_okOr _ (by decide +kernel)) (fun r => kept_of_checks (by revert r; decide +kernel)) (by decide +kernel)
    (ok_okOr _ (by decide +kernel))

theorem exHistory2 : History 8 exKeySort exampleBsearch exMassSort exS2 :=
  .snapshot exS1 exOld2 exS0 exMid2 exS2 (pick [200] []) (pick [[1, 0, 2]] []) (pick [] []) (pick [2, 0, 1] []) 1 exRes2
    exHistory1 (arrival_of_checks _ _ _ _ _ _ _ (by decide +kernel) (by decide +kernel) (by decide +kernel) (by decide +kernel)
      (by decide +kernel) (by decide +kernel) (by decide +kernel) (by decide +kernel) (by decide +kernel))
    (ok_okOr _ (by decide +kernel)) (fun r => kept_of_checks (by revert r; decide +kernel)) (by decide +kernel)
    (ok_okOr _ (by decide +kernel))

theorem exHistory3 : History 8 exKeySort exampleBsearch exMassSort exS3 :=
  .snapshot exS2 exOld3 exS0 exMid3 exS3 (pick [300] []) (pick [[1, 0]] []) (pick [] [0]) (pick [0, 1] [0]) 2 exRes3
    exHistory2 (arrival_of_checks _ _ _ _ _ _ _ (by decide +kernel) (by decide +kernel) (by decide +kernel) (by decide +kernel)
      (by decide +kernel) (by decide +kernel) (by decide +kernel) (by decide +kernel) (by decide +kernel))
    (ok_okOr _ (by decide +kernel)) (fun r => kept_of_checks (by revert r; decide +kernel)) (by decide +kernel)
    (ok_okOr _ (by decide +kernel))

/-- In the second snapshot track 1 is the root with children 0 and 2. -/
example : (exS2 0).map (fun s => (s.trackId, s.hostHaloId, s.rank, s.depth, s.nested))
    = [(0, 200, 1, 1, []), (1, 200, 0, 0, [0, 2]), (2, 200, 2, 1, [])] := by decide +kernel
example : Hierarchy (exS2 0) := C26_hierarchy (by decide) exKeySort_spec exampleBsearch_spec exMassSort_spec exHistory2 0
/-- In the third, track 2 is on the other process and its entry in the nest of track 1 is gone. -/
example : (exS3 0).map (fun s => (s.trackId, s.hostHaloId, s.rank, s.depth, s.nested))
    = [(0, 300, 1, 1, []), (1, 300, 0, 0, [0])] ∧
    (exS3 1).map (fun s => (s.trackId, s.hostHaloId, s.rank, s.depth, s.nested)) = [(2, -1, 0, 1, [])] :=
  ⟨by decide +kernel, by decide +kernel⟩

/-- C26, what does not hold: the recorded depth of a subhalo without host is not reset (`FillDepth`
visits the host groups only), so it can differ from its level 0. -/
theorem C26_field_depth_stale : ∃ (s : S2) (r : Fin 2), History 8 exKeySort exampleBsearch exMassSort s ∧
    ∃ x ∈ s r, x.hostHaloId = nullHalo ∧ x.rank = 0 ∧ x.depth ≠ 0 :=
  ⟨exS3, 1, exHistory3, by decide +kernel⟩

end HBT.Props
