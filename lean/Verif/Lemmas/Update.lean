import Verif.Lemmas.Nest
import Verif.Model.Update
import Verif.Props.Member
/-!
# `UpdateTracks` on one process
-/
namespace HBT
open HBT.Model HBT.Spec HBT.Spec.Forest HBT.Props
variable {K D : Type}

theorem group_slice {t : MemberTable} {h : Int} {ids : List Nat} (hg : t.group h = .ok ids) :
    ∃ v, 0 ≤ h + 1 ∧ t.groups[(h+1).toNat]? = some v ∧ slice t.all v.off v.n = .ok ids := by
  unfold MemberTable.group groupIndex at hg
  by_cases hneg : h + 1 < 0
  · rw [if_pos hneg] at hg; cases hg
  · rw [if_neg hneg, Outcome.bind_ok] at hg
    cases hv : t.groups[(h+1).toNat]? with
    | none =>
      unfold Outcome.get at hg
      rw [hv] at hg
      cases hg
    | some v =>
      rw [get_some hv, Outcome.bind_ok] at hg
      exact ⟨v, by omega, rfl, hg⟩

theorem group_of_slice {t : MemberTable} {h : Int} {ids : List Nat} {v : View} (h0 : 0 ≤ h + 1)
    (hv : t.groups[(h+1).toNat]? = some v) (hs : slice t.all v.off v.n = .ok ids) : t.group h = .ok ids := by
  unfold MemberTable.group groupIndex
  rw [if_neg (by omega), Outcome.bind_ok, get_some hv, Outcome.bind_ok, hs]

/-- Sorting the member lists again keeps the table correct. -/
theorem resort_files [LE K] {sort : List (Sub K D) → List Nat → List Nat} (hsort : SortsByMass sort)
    {t : MemberTable} {nh : Nat} {subs : List (Sub K D)} {orph : Bool} (ht : Files t nh subs orph) :
    ∃ all, sortMemberLists (sort subs) t.groups t.all = .ok all ∧
      Files ⟨all, t.groups, t.nBirth⟩ nh subs orph ∧
      ∀ (h : Int) (ids : List Nat), t.group h = .ok ids → (⟨all, t.groups, t.nBirth⟩ : MemberTable).group h = .ok (sort subs ids) := by
  have hgr : ∀ v ∈ t.groups, ∃ xs, slice t.all v.off v.n = .ok xs ∧ ∀ i ∈ xs, i < subs.length := by
    intro v hv
    obtain ⟨g, hg, rfl⟩ := List.getElem_of_mem hv
    obtain ⟨ids, e, hp, _⟩ := ht.lists ((g : Int) - 1) (by omega) (by have := ht.number; omega)
    obtain ⟨w, _, hw, hs⟩ := group_slice e
    have : ((g : Int) - 1 + 1).toNat = g := by omega
    rw [this, List.getElem?_eq_getElem hg] at hw
    cases hw
    exact ⟨ids, hs, fun i hi => membersOf_lt orph subs _ i (hp.mem_iff.1 hi)⟩
  obtain ⟨all, e, l, _, p⟩ := sortMemberLists_ok (sort subs) t.groups t.all
    (ht.disjoint.imp (fun h => Or.inl h)) (by
      intro v hv
      obtain ⟨xs, h1, h2⟩ := hgr v hv
      exact ⟨xs, h1, (hsort subs xs h2).1.length_eq⟩)
  refine ⟨all, e, ⟨?_, ht.number, by rw [← ht.storage]; exact l, ?_, ht.disjoint, ht.births⟩, fun h ids eg => ?_⟩
  · intro h h1 h2
    obtain ⟨ids, eg, hp, _⟩ := ht.lists h h1 h2
    obtain ⟨v, h0, hv, hs⟩ := group_slice eg
    have hin : ∀ i ∈ ids, i < subs.length := fun i hi => membersOf_lt orph subs _ i (hp.mem_iff.1 hi)
    refine ⟨sort subs ids, group_of_slice (t := ⟨all, t.groups, t.nBirth⟩) h0 hv
      (p v (List.mem_of_getElem? hv) ids hs), (hsort subs ids hin).1.trans hp, (hsort subs ids hin).2⟩
  · intro v hv
    rw [l]
    exact ht.inside v hv
  · obtain ⟨v, h0, hv, hs⟩ := group_slice eg
    exact group_of_slice (t := ⟨all, t.groups, t.nBirth⟩) h0 hv (p v (List.mem_of_getElem? hv) ids hs)

theorem readGroups_ok (t : MemberTable) (L : Int → List Nat) : ∀ (k : Nat) (h : Int),
    (∀ x, h ≤ x → x < h + k → t.group x = .ok (L x)) →
    readGroups t k h = .ok ((List.range k).map (fun i : Nat => L (h + i))) := by
  intro k
  induction k with
  | zero => intro h _; rfl
  | succ k ih =>
    intro h hL
    rw [readGroups, hL h (by omega) (by omega), Outcome.bind_ok,
      ih (h + 1) (fun x h1 h2 => hL x (by omega) (by push_cast; omega)), Outcome.bind_ok,
      List.range_succ_eq_map, List.map_cons, List.map_map]
    congr 2
    · simp
    · apply List.map_congr_left
      intro i _
      simp only [Function.comp]
      congr 1
      push_cast
      omega

/-- `s'` is `s` up to rank, nest and depth. -/
def Placed (s s' : Sub K D) : Prop := s' = ((s.withRank s'.rank).withNested s'.nested).withDepth s'.depth

theorem Framed.placed {s s' : Sub K D} (h : Framed s s') : Placed s s' := by
  unfold Framed at h
  unfold Placed
  rw [h]
  rfl

theorem Placed.trans {a b c : Sub K D} (h : Placed a b) (h' : Placed b c) : Placed a c := by
  unfold Placed at *
  rw [h', h]
  rfl

/-- What is the same after `UpdateTrack` and the host id update. -/
structure Refreshed [LE K] [DecidableLE K] (snap : Int) (haloIds : List Int) (s s' : Sub K D) : Prop where
  trackId : s'.trackId = s.trackId
  rank : s'.rank = s.rank
  depth : s'.depth = s.depth
  nested : s'.nested = s.nested
  snapSink : s'.snapSink = s.snapSink
  sink : s'.sinkTrackId = s.sinkTrackId
  host : (s.hostHaloId = -1 ∧ s'.hostHaloId = -1) ∨
    ∃ h : Nat, s.hostHaloId = (h : Int) ∧ haloIds[h]? = some s'.hostHaloId
  rest : s' = { updateTrack snap s with hostHaloId := s'.hostHaloId }

theorem updateTrack_frame [LE K] [DecidableLE K] (snap : Int) (s : Sub K D) :
    (updateTrack snap s).trackId = s.trackId ∧ (updateTrack snap s).rank = s.rank ∧
    (updateTrack snap s).depth = s.depth ∧ (updateTrack snap s).nested = s.nested ∧
    (updateTrack snap s).snapSink = s.snapSink ∧ (updateTrack snap s).sinkTrackId = s.sinkTrackId ∧
    (updateTrack snap s).hostHaloId = s.hostHaloId := by
  unfold updateTrack
  split_ifs <;> simp <;> split_ifs <;> simp

theorem refreshAll_ok [LE K] [DecidableLE K] (snap : Int) (haloIds : List Int) : ∀ subs : List (Sub K D),
    (∀ s ∈ subs, -1 ≤ s.hostHaloId ∧ s.hostHaloId < haloIds.length) →
    ∃ out, refreshAll snap haloIds subs = .ok out ∧ List.Forall₂ (Refreshed snap haloIds) subs out := by
  intro subs
  induction subs with
  | nil => intro _; exact ⟨[], rfl, .nil⟩
  | cons s subs ih =>
    intro h
    obtain ⟨out, e, p⟩ := ih (fun t ht => h t (by simp [ht]))
    obtain ⟨h1, h2⟩ := h s (by simp)
    obtain ⟨f1, f2, f3, f4, f5, f6, f7⟩ := updateTrack_frame snap s
    rw [refreshAll, restoreHost]
    by_cases hneg : s.hostHaloId < 0
    · rw [if_pos (by rw [f7]; exact hneg), Outcome.bind_ok, e, Outcome.bind_ok]
      exact ⟨_, rfl, .cons ⟨f1, f2, f3, f4, f5, f6, Or.inl ⟨by omega, rfl⟩, rfl⟩ p⟩
    · rw [if_neg (by rw [f7]; exact hneg), f7]
      obtain ⟨k, hk⟩ : ∃ k : Nat, s.hostHaloId = (k : Int) := ⟨s.hostHaloId.toNat, by omega⟩
      have hk2 : k < haloIds.length := by omega
      rw [hk, getI_some (List.getElem?_eq_getElem hk2), Outcome.bind_ok, Outcome.bind_ok, e, Outcome.bind_ok]
      exact ⟨_, rfl, .cons ⟨f1, f2, f3, f4, f5, f6, Or.inr ⟨k, hk, List.getElem?_eq_getElem hk2⟩, rfl⟩ p⟩

theorem globalIds_ok (subs : List (Sub K D)) : ∀ l : List Nat, (∀ i ∈ l, i < subs.length) →
    ∃ ts, globalIds subs (ints l) = .ok ts ∧ List.Forall₂ (fun i t => (subs[i]?).map Sub.trackId = some t) l ts := by
  intro l
  induction l with
  | nil => intro _; exact ⟨[], rfl, .nil⟩
  | cons i l ih =>
    intro h
    obtain ⟨ts, e, p⟩ := ih (fun j hj => h j (by simp [hj]))
    have hi := h i (by simp)
    have : ints (i :: l) = (i : Int) :: ints l := rfl
    rw [this, globalIds, getI_some (List.getElem?_eq_getElem hi), Outcome.bind_ok, e, Outcome.bind_ok]
    exact ⟨_, rfl, .cons (by rw [List.getElem?_eq_getElem hi]; rfl) p⟩

/-- The label of index `i`. -/
def trackAt (subs : List (Sub K D)) (i : Nat) : Int := ((subs[i]?).map Sub.trackId).getD (-1)

theorem trackAt_some {subs : List (Sub K D)} {i : Nat} {s : Sub K D} (h : subs[i]? = some s) :
    trackAt subs i = s.trackId := by simp [trackAt, h]

/-- The sink in global form. -/
def sinkAfter (snap : Int) (all : List (Sub K D)) (s : Sub K D) : Int :=
  if s.snapSink = snap then trackAt all s.sinkTrackId.toNat else s.sinkTrackId

/-- What globalisation does to one subhalo. -/
structure Globalized (snap : Int) (all : List (Sub K D)) (s s' : Sub K D) : Prop where
  trackId : s'.trackId = s.trackId
  rank : s'.rank = s.rank
  depth : s'.depth = s.depth
  host : s'.hostHaloId = s.hostHaloId
  nested : ∀ l, s.nested = ints l → List.Forall₂ (fun (i : Nat) (t : Int) => (all[i]?).map Sub.trackId = some t) l s'.nested
  rest : s' = { s with nested := s'.nested, sinkTrackId := sinkAfter snap all s }

theorem globalizeFrom_ok (snap : Int) (all : List (Sub K D)) : ∀ subs : List (Sub K D),
    (∀ s ∈ subs, ∃ l : List Nat, s.nested = ints l ∧ ∀ i ∈ l, i < all.length) →
    (∀ s ∈ subs, s.snapSink = snap → 0 ≤ s.sinkTrackId ∧ s.sinkTrackId < all.length) →
    ∃ out, globalizeFrom snap all subs = .ok out ∧ List.Forall₂ (Globalized snap all) subs out := by
  intro subs
  induction subs with
  | nil => intro _ _; exact ⟨[], rfl, .nil⟩
  | cons s subs ih =>
    intro h hs
    obtain ⟨out, e, p⟩ := ih (fun t ht => h t (by simp [ht])) (fun t ht => hs t (by simp [ht]))
    obtain ⟨l, hl, hin⟩ := h s (by simp)
    obtain ⟨ts, e1, p1⟩ := globalIds_ok all l hin
    have hu : ∀ l', s.nested = ints l' → l' = l := fun l' h' => ints_inj (by rw [← h', hl])
    rw [globalizeFrom, globalizeOne, hl, e1, Outcome.bind_ok]
    by_cases hsn : s.snapSink = snap
    · obtain ⟨h1, h2⟩ := hs s (by simp) hsn
      obtain ⟨k, hk⟩ : ∃ k : Nat, s.sinkTrackId = (k : Int) := ⟨s.sinkTrackId.toNat, by omega⟩
      have hk2 : k < all.length := by omega
      rw [if_pos hsn, hk, getI_some (List.getElem?_eq_getElem hk2)]
      simp only [Outcome.bind_ok]
      rw [e]
      refine ⟨_, rfl, .cons ⟨rfl, rfl, rfl, rfl, fun l' h' => by rw [hu l' h']; exact p1, ?_⟩ p⟩
      simp only [sinkAfter]
      rw [if_pos hsn, hk, Int.toNat_natCast, trackAt_some (List.getElem?_eq_getElem hk2)]
    · rw [if_neg hsn]
      simp only [Outcome.bind_ok]
      rw [e]
      refine ⟨_, rfl, .cons ⟨rfl, rfl, rfl, rfl, fun l' h' => by rw [hu l' h']; exact p1, ?_⟩ p⟩
      simp only [sinkAfter]
      rw [if_neg hsn]
      rfl

theorem trackAt_inj {subs : List (Sub K D)} (hn : (subs.map Sub.trackId).Nodup) {i j : Nat} (hi : i < subs.length)
    (hj : j < subs.length) (h : trackAt subs i = trackAt subs j) : i = j := by
  rw [trackAt_some (List.getElem?_eq_getElem hi), trackAt_some (List.getElem?_eq_getElem hj)] at h
  refine (List.getElem?_inj (l := subs.map Sub.trackId) (by simpa using hi) hn).1 ?_
  rw [List.getElem?_map, List.getElem?_map, List.getElem?_eq_getElem hi, List.getElem?_eq_getElem hj,
    Option.map_some, Option.map_some, h]

theorem forall₂_get {α β : Type} {R : α → β → Prop} {l : List α} {l' : List β} (h : List.Forall₂ R l l') (i : Nat)
    (a : α) (ha : l[i]? = some a) : ∃ b, l'[i]? = some b ∧ R a b := by
  induction h generalizing i with
  | nil => simp at ha
  | cons hr _ ih =>
    cases i with
    | zero => cases ha; exact ⟨_, rfl, hr⟩
    | succ i => exact ih i ha

theorem forall₂_get' {α β : Type} {R : α → β → Prop} {l : List α} {l' : List β} (h : List.Forall₂ R l l') (i : Nat)
    (b : β) (hb : l'[i]? = some b) : ∃ a, l[i]? = some a ∧ R a b := by
  induction h generalizing i with
  | nil => simp at hb
  | cons hr _ ih =>
    cases i with
    | zero => cases hb; exact ⟨_, rfl, hr⟩
    | succ i => exact ih i hb

/-- What `UpdateTracks` makes of the subhaloes `subs` (with local references): same ids, ranks and
depths; references and hosts in global form. -/
structure Finished [LE K] [DecidableLE K] (snap : Int) (haloIds : List Int) (subs : List (Sub K D)) (s s' : Sub K D) : Prop where
  trackId : s'.trackId = s.trackId
  rank : s'.rank = s.rank
  depth : s'.depth = s.depth
  nested : ∀ l, s.nested = ints l → s'.nested = l.map (trackAt subs)
  host : (s.hostHaloId = -1 ∧ s'.hostHaloId = -1) ∨
    ∃ h : Nat, s.hostHaloId = (h : Int) ∧ haloIds[h]? = some s'.hostHaloId
  rest : s' = { updateTrack snap s with hostHaloId := s'.hostHaloId, nested := s'.nested, sinkTrackId := sinkAfter snap subs s }

theorem finish_ok [LE K] [DecidableLE K] (snap : Int) (haloIds : List Int) (subs : List (Sub K D))
    (hhost : ∀ s ∈ subs, -1 ≤ s.hostHaloId ∧ s.hostHaloId < haloIds.length)
    (hnest : ∀ s ∈ subs, ∃ l : List Nat, s.nested = ints l ∧ ∀ i ∈ l, i < subs.length)
    (hsink : ∀ s ∈ subs, s.snapSink = snap → 0 ≤ s.sinkTrackId ∧ s.sinkTrackId < subs.length) :
    ∃ out, (do let subs ← refreshAll snap haloIds subs; globalize snap subs) = .ok out ∧
      List.Forall₂ (Finished snap haloIds subs) subs out := by
  obtain ⟨m, e1, p1⟩ := refreshAll_ok snap haloIds subs hhost
  have hlen : m.length = subs.length := p1.length_eq.symm
  have htr : ∀ i : Nat, (m[i]?).map Sub.trackId = (subs[i]?).map Sub.trackId := by
    intro i
    cases hs : subs[i]? with
    | none =>
      rw [List.getElem?_eq_none_iff] at hs
      rw [List.getElem?_eq_none (by omega)]
    | some s =>
      obtain ⟨b, hb, r⟩ := forall₂_get p1 i s hs
      rw [hb, Option.map_some, Option.map_some, r.trackId]
  have htrl : ∀ (l : List Nat) (ts : List Int),
      List.Forall₂ (fun (i : Nat) (t : Int) => (m[i]?).map Sub.trackId = some t) l ts → ts = l.map (trackAt subs) := by
    intro l ts h
    induction h with
    | nil => rfl
    | cons h1 _ ih =>
      rw [List.map_cons, ← ih]
      congr 1
      rw [htr] at h1
      simp [trackAt, h1]
  obtain ⟨out, e2, p2⟩ := globalizeFrom_ok snap m m (by
      intro s hs
      obtain ⟨i, hi, rfl⟩ := List.getElem_of_mem hs
      obtain ⟨a, ha, r⟩ := forall₂_get' p1 i _ (List.getElem?_eq_getElem hi)
      obtain ⟨l, h1, h2⟩ := hnest a (List.mem_of_getElem? ha)
      exact ⟨l, by rw [r.nested, h1], by rw [hlen]; exact h2⟩) (by
      intro s hs hsn
      obtain ⟨i, hi, rfl⟩ := List.getElem_of_mem hs
      obtain ⟨a, ha, r⟩ := forall₂_get' p1 i _ (List.getElem?_eq_getElem hi)
      rw [r.sink, hlen]
      exact hsink a (List.mem_of_getElem? ha) (by rw [← r.snapSink]; exact hsn))
  refine ⟨out, by rw [e1, Outcome.bind_ok, globalize, e2], ?_⟩
  have hcomp : ∀ (a b : List (Sub K D)) (c : List (Sub K D)), List.Forall₂ (Refreshed snap haloIds) a b →
      List.Forall₂ (Globalized snap m) b c → List.Forall₂ (Finished snap haloIds subs) a c := by
    intro a b c h
    induction h generalizing c with
    | nil => intro h; cases h; exact .nil
    | cons hr _ ih =>
      intro h
      cases h with
      | cons hg h =>
        refine .cons ⟨by rw [hg.trackId, hr.trackId], by rw [hg.rank, hr.rank], by rw [hg.depth, hr.depth], ?_, ?_, ?_⟩ (ih _ h)
        · intro l hl
          have := hg.nested l (by rw [hr.nested, hl])
          exact htrl l _ this
        · rw [hg.host]
          exact hr.host
        · have hta : ∀ i, trackAt m i = trackAt subs i := fun i => by simp [trackAt, htr]
          rw [hg.rest, hr.rest]
          simp only [sinkAfter, hta, (updateTrack_frame snap _).2.2.2.2.1, (updateTrack_frame snap _).2.2.2.2.2.1]
  exact hcomp _ _ _ p1 p2

theorem finished_tracks [LE K] [DecidableLE K] {snap : Int} {haloIds : List Int} {subs out : List (Sub K D)} {A : List (Sub K D)}
    (h : List.Forall₂ (Finished snap haloIds A) subs out) : out.map Sub.trackId = subs.map Sub.trackId := by
  induction h with
  | nil => rfl
  | cons hr _ ih => rw [List.map_cons, List.map_cons, ih, hr.trackId]

theorem finished_shows [LE K] [DecidableLE K] {snap : Int} {haloIds : List Int} {subs out : List (Sub K D)}
    (h : List.Forall₂ (Finished snap haloIds subs) subs out) (F : Forest Nat) (hF : F.Shows (idxKids subs)) :
    (F.map (trackAt subs)).Shows (trackKids out) := by
  refine shows_map _ F ?_ hF
  rintro a _ l _ ⟨s, hs, hl⟩
  obtain ⟨s', hs', r⟩ := forall₂_get h a s hs
  exact ⟨s', List.mem_of_getElem? hs', by rw [r.trackId, trackAt_some hs], r.nested l hl⟩

theorem finished_depths [LE K] [DecidableLE K] {snap : Int} {haloIds : List Int} {subs out : List (Sub K D)}
    (h : List.Forall₂ (Finished snap haloIds subs) subs out) (F : Forest Nat) (d : Int) (hF : F.Depths (idxDepth subs) d) :
    (F.map (trackAt subs)).Depths (trackDepth out) d := by
  refine depths_map _ F d ?_ hF
  rintro a _ e ⟨s, hs, hl⟩
  obtain ⟨s', hs', r⟩ := forall₂_get h a s hs
  exact ⟨s', List.mem_of_getElem? hs', by rw [r.trackId, trackAt_some hs], by rw [r.depth, hl]⟩

/-- The index forest in terms of tracks. -/
theorem finished_forest [LE K] [DecidableLE K] {snap : Int} {haloIds : List Int} {subs out : List (Sub K D)} (hn : (subs.map Sub.trackId).Nodup)
    (h : List.Forall₂ (Finished snap haloIds subs) subs out) {F : Forest Nat} (hF : IdxForest subs F) :
    ∃ G : Forest Int, G.nodes.Perm (out.map Sub.trackId) ∧ G.Shows (trackKids out) ∧
      ∀ s ∈ out, (s.rank = 0 ↔ s.trackId ∈ G.roots) := by
  refine ⟨F.map (trackAt subs), ?_, finished_shows h F hF.shows_, ?_⟩
  · rw [nodes_map, finished_tracks h]
    have : subs.map Sub.trackId = (List.range subs.length).map (trackAt subs) := by
      apply List.ext_getElem?
      intro i
      rw [List.getElem?_map, List.getElem?_map]
      by_cases hi : i < subs.length
      · rw [List.getElem?_range hi, List.getElem?_eq_getElem hi, Option.map_some, Option.map_some,
          trackAt_some (List.getElem?_eq_getElem hi)]
      · rw [List.getElem?_eq_none (by omega), List.getElem?_eq_none (by simpa using hi)]
        rfl
    rw [this]
    exact hF.nodes.map _
  · intro s' hs'
    obtain ⟨i, hi, rfl⟩ := List.getElem_of_mem hs'
    obtain ⟨s, hs, r⟩ := forall₂_get' h i _ (List.getElem?_eq_getElem hi)
    rw [r.rank, hF.rank i s hs, r.trackId, roots_map, ← trackAt_some hs]
    constructor
    · exact fun h => List.mem_map.2 ⟨i, h, rfl⟩
    · intro h
      obtain ⟨j, hj, e⟩ := List.mem_map.1 h
      have hjl : j < subs.length := hF.mem.1 (roots_subset F hj)
      rwa [← trackAt_inj hn hjl (List.getElem?_eq_some_iff.1 hs).1 e]

theorem OneTree.nest {subs subs' : List (Sub K D)} {g : List Nat} (h : OneTree subs g)
    (he : ∀ i ∈ g, (subs'[i]?).map Sub.nested = (subs[i]?).map Sub.nested) : OneTree subs' g := by
  intro c hc
  obtain ⟨k, h1, h2⟩ := h c hc
  refine ⟨k, shows_congr _ ?_ h1, h2⟩
  rintro a ha l ⟨s, hs, hl⟩
  have := he a (h2.mem_iff.1 ha)
  rw [hs, Option.map_some] at this
  cases hs' : subs'[a]? with
  | none => rw [hs'] at this; cases this
  | some s' =>
    rw [hs', Option.map_some, Option.some.injEq] at this
    exact ⟨s', hs', by rw [this, hl]⟩

/-- `AssignRanks` in terms of positions. -/
theorem assignRanks_pos [LE K] {t : MemberTable} {nh : Nat} {subs0 subs : List (Sub K D)} (ht : Files t nh subs0 true)
    (hlen : subs.length = subs0.length) (L : Int → List Nat)
    (hL : ∀ h : Int, -1 ≤ h → h < nh → t.group h = .ok (L h) ∧ (L h).Perm (membersOf true subs0 h)) :
    ∃ subs', assignRanks t subs = .ok subs' ∧ subs'.length = subs.length ∧
      (∀ i ∈ L (-1), subs'[i]? = (subs[i]?).map (fun s => s.withRank 0)) ∧
      (∀ h : Int, 0 ≤ h → h < nh → ∀ (j i : Nat), (L h)[j]? = some i →
        subs'[i]? = (subs[i]?).map (fun s => s.withRank (j : Int))) := by
  have hnd : ∀ h : Int, -1 ≤ h → h < nh → (L h).Nodup := fun h h1 h2 =>
    ((hL h h1 h2).2.nodup_iff).2 (membersOf_nodup _ _ _)
  have hlt : ∀ h : Int, -1 ≤ h → h < nh → ∀ i ∈ L h, i < subs.length := fun h h1 h2 i hi => by
    rw [hlen]; exact membersOf_lt _ _ _ i ((hL h h1 h2).2.mem_iff.1 hi)
  have hdis : ∀ h h' : Int, -1 ≤ h → h < nh → -1 ≤ h' → h' < nh → h ≠ h' → ∀ i ∈ L h, i ∉ L h' := by
    intro h h' h1 h2 h3 h4 hne i hi hi'
    obtain ⟨s, hs, e, _⟩ := (mem_membersOf _ _ _ _).1 ((hL h h1 h2).2.mem_iff.1 hi)
    obtain ⟨s', hs', e', _⟩ := (mem_membersOf _ _ _ _).1 ((hL h' h3 h4).2.mem_iff.1 hi')
    rw [hs] at hs'
    cases hs'
    exact hne (by rw [← e, ← e'])
  obtain ⟨s1, e1, l1, o1, p1⟩ := setRanks_ok (fun _ => 0) (L (-1)) 0 subs (hnd (-1) (le_refl _) (by omega)) (hlt (-1) (le_refl _) (by omega))
  obtain ⟨s2, e2, l2, o2, p2⟩ := assignRanksFrom_ok t L nh 0 s1
    (fun x h1 h2 => ⟨(hL x (by omega) (by omega)).1, hnd x (by omega) (by omega), fun i hi => by
      rw [l1]; exact hlt x (by omega) (by omega) i hi⟩)
    (fun x y h1 h2 h3 => hdis x y (by omega) (by omega) (by omega) (by omega) (by omega))
  refine ⟨s2, ?_, by rw [l2, l1], ?_, ?_⟩
  · rw [assignRanks, (hL (-1) (le_refl _) (by omega)).1, Outcome.bind_ok, e1, Outcome.bind_ok, ht.number,
      Nat.add_sub_cancel, e2]
  · intro i hi
    rw [o2 i (fun x h1 h2 => hdis (-1) x (le_refl _) (by omega) (by omega) (by omega) (by omega) i hi)]
    obtain ⟨j, hj⟩ := List.getElem?_of_mem hi
    exact p1 j i hj
  · intro h h1 h2 j i hji
    rw [p2 h h1 (by omega) j i hji]
    rw [o1 i (hdis h (-1) (by omega) h2 (le_refl _) (by omega) (by omega) i (List.mem_of_getElem? hji))]

/-- What `UpdateTracks` makes of a subhalo: the records are updated with the new rank, hosts and
references are in global form, and the nesting data are new. -/
def Updated [LE K] [DecidableLE K] (snap : Int) (all : List (Sub K D)) (s s' : Sub K D) : Prop :=
  s' = { updateTrack snap (s.withRank s'.rank) with
    hostHaloId := s'.hostHaloId, depth := s'.depth, nested := s'.nested, sinkTrackId := sinkAfter snap all s }

/-- The local host index has been replaced by the id of the halo. -/
def Located (haloIds : List Int) (s s' : Sub K D) : Prop :=
  (s.hostHaloId = -1 ∧ s'.hostHaloId = -1) ∨ ∃ h : Nat, s.hostHaloId = (h : Int) ∧ haloIds[h]? = some s'.hostHaloId

/-- Both. -/
def Renewed [LE K] [DecidableLE K] (snap : Int) (haloIds : List Int) (all : List (Sub K D)) (s s' : Sub K D) : Prop :=
  Updated snap all s s' ∧ Located haloIds s s'

theorem updated_of [LE K] [DecidableLE K] {snap : Int} {haloIds : List Int} {subs subs' : List (Sub K D)} {a b s' : Sub K D}
    (hp : Placed a b) (hf : Finished snap haloIds subs' b s') (ht : ∀ i, trackAt subs' i = trackAt subs i) :
    Updated snap subs a s' := by
  have hr := hf.rank
  have hd := hf.depth
  have hrest := hf.rest
  unfold Placed at hp
  have h1 : sinkAfter snap subs' b = sinkAfter snap subs a := by
    rw [hp]
    simp only [sinkAfter, ht]
    rfl
  have h2 : updateTrack snap b = { updateTrack snap (a.withRank b.rank) with nested := b.nested, depth := b.depth } := by
    conv_lhs => rw [hp]
    simp only [updateTrack]
    by_cases c1 : a.trackId = nullTrack <;> by_cases c2 : b.rank = 0 <;> by_cases c3 : a.lastMaxMass ≤ a.mbound <;>
      simp [Sub.withRank, Sub.withNested, Sub.withDepth, c1, c2, c3]
  rw [h1, h2] at hrest
  unfold Updated
  rw [hr, hd]
  exact hrest

/-- The steps of `UpdateTracks` on one process: `gs` are the groups and `field` the field subhaloes of the table, sorted;
`s3` are the subhaloes before the tracks are updated, in which the rank is the place in the group. -/
def UpdateSteps [LE K] [DecidableLE K] (sort : List (Sub K D) → List Nat → List Nat) (snap : Int) (haloIds : List Int)
    (heads : List (List Nat)) (subs : List (Sub K D)) (out : List (Sub K D)) : Prop :=
  ∃ (t : MemberTable) (all : List Nat) (gs : List (List Nat)) (field : List Nat) (s1 s2 s3 : List (Sub K D)),
    buildTable sort haloIds.length subs true = .ok t ∧ sortMemberLists (sort subs) t.groups t.all = .ok all ∧
    readGroups ⟨all, t.groups, t.nBirth⟩ haloIds.length 0 = .ok gs ∧ extendNests subs.length gs heads subs = .ok s1 ∧
    assignRanks ⟨all, t.groups, t.nBirth⟩ s1 = .ok s2 ∧ fillDepth s2.length gs s2 = .ok s3 ∧
    (⟨all, t.groups, t.nBirth⟩ : MemberTable).group (-1) = .ok field ∧ (refreshAll snap haloIds s3 >>= globalize snap) = .ok out ∧
    s3.length = subs.length ∧ (gs.flatten ++ field).Perm (List.range s3.length) ∧
    (∀ (h : Nat) (g : List Nat) (j i : Nat), gs[h]? = some g → g[j]? = some i → ∃ b, s3[i]? = some b ∧ b.hostHaloId = (h : Int) ∧ b.rank = (j : Int)) ∧
    (∀ (i : Nat) (b : Sub K D), s3[i]? = some b → b.hostHaloId ≠ -1 → ∃ (h : Nat) (g : List Nat) (j : Nat), b.hostHaloId = (h : Int) ∧
      gs[h]? = some g ∧ g[j]? = some i) ∧ List.Forall₂ (Finished snap haloIds s3) s3 out

/-- `UpdateTracks` on one process: if the groups of the (rebuilt) table can be extended with the given
heads, the result is a correct hierarchy. -/
theorem updateLocal_full [LinearOrder K] {sort : List (Sub K D) → List Nat → List Nat} (hsort : SortsByMass sort)
    (snap : Int) (haloIds : List Int) (heads : List (List Nat)) (subs : List (Sub K D))
    (hhalo : haloIds.Nodup) (hhalo' : (-1 : Int) ∉ haloIds)
    (hhost : ∀ s ∈ subs, -1 ≤ s.hostHaloId ∧ s.hostHaloId < haloIds.length)
    (hids : (subs.map Sub.trackId).Nodup)
    (hheads : ∀ gs : List (List Nat), gs.length = haloIds.length →
      (∀ (h : Nat) (g : List Nat), gs[h]? = some g → g.Perm (membersOf true subs (h : Int))) →
      List.Forall₂ (CanExtend subs) gs heads)
    (hfield : ∀ s ∈ subs, s.hostHaloId = -1 → s.nested = [])
    (hsink : ∀ s ∈ subs, s.snapSink = snap → 0 ≤ s.sinkTrackId ∧ s.sinkTrackId < subs.length) :
    ∃ out, updateLocal sort snap haloIds heads subs = .ok out ∧ out.map Sub.trackId = subs.map Sub.trackId ∧
      Hierarchy out ∧ List.Forall₂ (Renewed snap haloIds subs) subs out ∧
      (∃ G : Forest Int, G.nodes.Perm (out.map Sub.trackId) ∧ G.Shows (trackKids out) ∧
        ∀ s ∈ out, (s.rank = 0 ↔ s.trackId ∈ G.roots)) ∧
      UpdateSteps sort snap haloIds heads subs out := by
  obtain ⟨t, et, ft⟩ := C23_build sort hsort haloIds.length subs true (fun s hs _ => hhost s hs)
  obtain ⟨all, ea, fa, _⟩ := resort_files hsort ft
  have hLex : ∀ h : Int, ∃ ids, -1 ≤ h → h < haloIds.length → (⟨all, t.groups, t.nBirth⟩ : MemberTable).group h = .ok ids ∧
      ids.Perm (membersOf true subs h) := by
    intro h
    by_cases hr : -1 ≤ h ∧ h < haloIds.length
    · obtain ⟨ids, e, p, _⟩ := fa.lists h hr.1 hr.2
      exact ⟨ids, fun _ _ => ⟨e, p⟩⟩
    · exact ⟨[], fun h1 h2 => absurd ⟨h1, h2⟩ hr⟩
  choose L hL using hLex
  have hread := readGroups_ok ⟨all, t.groups, t.nBirth⟩ L haloIds.length 0 (fun x h1 h2 => (hL x (by omega) (by omega)).1)
  set gs := (List.range haloIds.length).map (fun i : Nat => L (0 + i)) with hgs
  have hgsget : ∀ (h : Nat) (g : List Nat), gs[h]? = some g → h < haloIds.length ∧ g = L (h : Int) := by
    intro h g hg
    rw [hgs, List.getElem?_map] at hg
    by_cases hh : h < haloIds.length
    · rw [List.getElem?_range hh, Option.map_some, Option.some.injEq] at hg
      exact ⟨hh, by rw [← hg]; simp⟩
    · rw [List.getElem?_eq_none (by simpa using hh)] at hg
      cases hg
  have hgsmem : ∀ g ∈ gs, ∃ h : Nat, h < haloIds.length ∧ g = L (h : Int) := by
    intro g hg
    obtain ⟨h, hh⟩ := List.getElem?_of_mem hg
    obtain ⟨h1, h2⟩ := hgsget h g hh
    exact ⟨h, h1, h2⟩
  have hLgs : ∀ h : Nat, h < haloIds.length → L (h : Int) ∈ gs := by
    intro h hh
    rw [hgs]
    exact List.mem_map.2 ⟨h, List.mem_range.2 hh, by simp⟩
  have hmemL : ∀ h : Int, -1 ≤ h → h < haloIds.length → ∀ i, i ∈ L h ↔ ∃ s, subs[i]? = some s ∧ s.hostHaloId = h := by
    intro h h1 h2 i
    rw [(hL h h1 h2).2.mem_iff, mem_membersOf]
    simp
  have hLnd : ∀ h : Int, -1 ≤ h → h < haloIds.length → (L h).Nodup := fun h h1 h2 =>
    ((hL h h1 h2).2.nodup_iff).2 (membersOf_nodup _ _ _)
  have hflat : ∀ i, i ∈ gs.flatten ↔ ∃ s, subs[i]? = some s ∧ s.hostHaloId ≠ -1 := by
    intro i
    rw [List.mem_flatten]
    constructor
    · rintro ⟨g, hg, hi⟩
      obtain ⟨h, hh, rfl⟩ := hgsmem g hg
      obtain ⟨s, hs, e⟩ := (hmemL h (by omega) (by omega) i).1 hi
      exact ⟨s, hs, by omega⟩
    · rintro ⟨s, hs, hne⟩
      obtain ⟨h1, h2⟩ := hhost s (List.mem_of_getElem? hs)
      refine ⟨L (s.hostHaloId.toNat : Int), hLgs _ (by omega), (hmemL _ (by omega) (by omega) i).2 ⟨s, hs, by omega⟩⟩
  have hgnd : gs.flatten.Nodup := by
    rw [List.nodup_flatten]
    constructor
    · intro g hg
      obtain ⟨h, hh, rfl⟩ := hgsmem g hg
      exact hLnd h (by omega) (by omega)
    · rw [hgs, List.pairwise_map]
      refine List.Pairwise.imp_of_mem ?_ (List.nodup_range (n := haloIds.length))
      intro a b ha hb hab i hi hi'
      rw [List.mem_range] at ha hb
      obtain ⟨s, hs, e⟩ := (hmemL _ (by omega) (by omega) i).1 hi
      obtain ⟨s', hs', e'⟩ := (hmemL _ (by omega) (by omega) i).1 hi'
      rw [hs] at hs'
      cases hs'
      omega
  have hglen : ∀ g ∈ gs, g.length ≤ subs.length := by
    intro g hg
    obtain ⟨h, hh, rfl⟩ := hgsmem g hg
    rw [(hL h (by omega) (by omega)).2.length_eq]
    unfold membersOf
    exact (List.length_filter_le _ _).trans (by simp)
  -- extend the nests
  have hcan := hheads gs (by simp [hgs]) (by
    intro h g hg
    obtain ⟨h1, rfl⟩ := hgsget h g hg
    exact (hL h (by omega) (by omega)).2)
  obtain ⟨s1, e1, l1, o1, f1, t1⟩ := extendNests_ok subs.length gs heads subs hgnd hglen hcan
  -- ranks
  obtain ⟨s2, e2, l2, fld2, p2⟩ := assignRanks_pos fa (subs := s1) l1 L hL
  have hs2 : ∀ (i : Nat) (a : Sub K D), s1[i]? = some a → ∃ r, s2[i]? = some (a.withRank r) := by
    intro i a ha
    have hi : i < subs.length := by rw [← l1]; exact (List.getElem?_eq_some_iff.1 ha).1
    obtain ⟨h1, h2⟩ := hhost _ (List.getElem_mem hi)
    have hm : i ∈ L subs[i].hostHaloId := (hmemL _ h1 h2 i).2 ⟨_, List.getElem?_eq_getElem hi, rfl⟩
    by_cases hf : subs[i].hostHaloId = -1
    · rw [hf] at hm
      exact ⟨_, by rw [fld2 i hm, ha]; rfl⟩
    · obtain ⟨j, hj⟩ := List.getElem?_of_mem hm
      exact ⟨_, by rw [p2 _ (by omega) h2 j i hj, ha]; rfl⟩
  -- depths
  obtain ⟨s3, e3, l3, o3, f3, t3⟩ := fillDepth_ok subs.length gs s2 hgnd hglen (by
    intro g hg
    refine (t1 g hg).nest ?_
    intro i _
    cases hi : s1[i]? with
    | none =>
      rw [List.getElem?_eq_none_iff] at hi
      rw [List.getElem?_eq_none (by omega)]
    | some a =>
      obtain ⟨r, hr⟩ := hs2 i a hi
      rw [hr]
      rfl)
  have hlen3 : s3.length = subs.length := by rw [l3, l2, l1]
  -- all together
  have hall : ∀ (i : Nat) (a : Sub K D), subs[i]? = some a → ∃ b, s3[i]? = some b ∧ Placed a b ∧
      (∀ b2, s2[i]? = some b2 → b.rank = b2.rank) ∧ (a.hostHaloId = -1 → b.nested = []) := by
    intro i a ha
    by_cases hf : a.hostHaloId = -1
    · have hnf : i ∉ gs.flatten := by
        rw [hflat]
        rintro ⟨s, hs, hne⟩
        rw [ha] at hs
        cases hs
        exact hne hf
      have h1 : s1[i]? = some a := by rw [o1 i hnf, ha]
      obtain ⟨r, hr⟩ := hs2 i a h1
      refine ⟨a.withRank r, by rw [o3 i hnf, hr], rfl, fun b2 hb2 => by rw [hr] at hb2; cases hb2; rfl, fun _ => ?_⟩
      exact hfield a (List.mem_of_getElem? ha) hf
    · have hnf : i ∈ gs.flatten := (hflat i).2 ⟨a, ha, hf⟩
      obtain ⟨a', b, ha', hb, hfr⟩ := f1 i hnf
      rw [ha] at ha'
      cases ha'
      obtain ⟨r, hr⟩ := hs2 i b hb
      obtain ⟨c, d, hc, hd⟩ := f3 i hnf
      rw [hr] at hc
      cases hc
      refine ⟨_, hd, ?_, fun b2 hb2 => by rw [hr] at hb2; cases hb2; rfl, fun h => absurd h hf⟩
      refine hfr.placed.trans ?_
      rfl
  have hback : ∀ (i : Nat) (b : Sub K D), s3[i]? = some b → ∃ a, subs[i]? = some a ∧ Placed a b := by
    intro i b hb
    have hi : i < subs.length := by rw [← hlen3]; exact (List.getElem?_eq_some_iff.1 hb).1
    obtain ⟨b', hb', hp, _⟩ := hall i _ (List.getElem?_eq_getElem hi)
    rw [hb] at hb'
    cases hb'
    exact ⟨_, List.getElem?_eq_getElem hi, hp⟩
  have hph : ∀ a b : Sub K D, Placed a b → b.hostHaloId = a.hostHaloId ∧ b.trackId = a.trackId ∧
      b.snapSink = a.snapSink ∧ b.sinkTrackId = a.sinkTrackId := by
    intro a b h
    unfold Placed at h
    rw [h]
    exact ⟨rfl, rfl, rfl, rfl⟩
  -- the forest of indices
  have htrees : ∀ g, ∃ T : Forest Nat, g ∈ gs → T.Shows (idxKids s3) ∧ T.nodes.Perm g ∧ T.roots = g.head?.toList ∧
      T.Depths (idxDepth s3) 0 := by
    intro g
    by_cases hg : g ∈ gs
    · cases g with
      | nil => exact ⟨.nil, fun _ => ⟨trivial, List.Perm.refl _, rfl, trivial⟩⟩
      | cons c g =>
        obtain ⟨k, h1, h2, h3⟩ := t3 (c :: g) hg c rfl
        exact ⟨.cons c k .nil, fun _ => ⟨h1, h2, rfl, h3⟩⟩
    · exact ⟨.nil, fun h => absurd h hg⟩
  choose T hT using htrees
  have hrank : ∀ (i : Nat) (b : Sub K D), s3[i]? = some b → ∀ h : Int, 0 ≤ h → h < haloIds.length → b.hostHaloId = h →
      (b.rank = 0 ↔ (L h).head? = some i) := by
    intro i b hb h h1 h2 hbh
    obtain ⟨a, ha, hp⟩ := hback i b hb
    obtain ⟨b', hb', _, hr, _⟩ := hall i a ha
    rw [hb] at hb'
    cases hb'
    have hm : i ∈ L h := (hmemL h (by omega) h2 i).2 ⟨a, ha, by rw [← (hph a b hp).1, hbh]⟩
    obtain ⟨j, hj⟩ := List.getElem?_of_mem hm
    have hi1 : i < s1.length := by rw [l1]; exact (List.getElem?_eq_some_iff.1 ha).1
    have h2' := p2 h h1 h2 j i hj
    rw [List.getElem?_eq_getElem hi1, Option.map_some] at h2'
    rw [hr _ h2', Sub.withRank_rank, List.head?_eq_getElem?]
    constructor
    · intro h0
      have : j = 0 := by omega
      rw [← this]; exact hj
    · intro h0
      have hjl : j < (L h).length := (List.getElem?_eq_some_iff.1 hj).1
      have := (List.getElem?_inj hjl (hLnd h (by omega) h2)).1 (hj.trans h0.symm)
      rw [this]; rfl
  have hrankf : ∀ (i : Nat) (b : Sub K D), s3[i]? = some b → b.hostHaloId = -1 → b.rank = 0 ∧ b.nested = [] := by
    intro i b hb hbh
    obtain ⟨a, ha, hp⟩ := hback i b hb
    obtain ⟨b', hb', _, hr, hn⟩ := hall i a ha
    rw [hb] at hb'
    cases hb'
    have hah : a.hostHaloId = -1 := by rw [← (hph a b hp).1, hbh]
    have hm : i ∈ L (-1) := (hmemL (-1) (le_refl _) (by omega) i).2 ⟨a, ha, hah⟩
    have hi1 : i < s1.length := by rw [l1]; exact (List.getElem?_eq_some_iff.1 ha).1
    have h2' := fld2 i hm
    rw [List.getElem?_eq_getElem hi1, Option.map_some] at h2'
    exact ⟨by rw [hr _ h2']; rfl, hn hah⟩
  have hnodesL : (gs.flatten ++ L (-1)).Perm (List.range s3.length) := by
    refine (List.perm_ext_iff_of_nodup ?_ List.nodup_range).2 ?_
    · rw [List.nodup_append]
      refine ⟨hgnd, hLnd (-1) (le_refl _) (by omega), ?_⟩
      rintro i hi j hj rfl
      obtain ⟨s, hs, hne⟩ := (hflat i).1 hi
      obtain ⟨s', hs', he⟩ := (hmemL (-1) (le_refl _) (by omega) i).1 hj
      rw [hs] at hs'
      cases hs'
      exact hne he
    · intro i
      rw [List.mem_append, List.mem_range, hlen3, hflat, hmemL (-1) (le_refl _) (by omega)]
      constructor
      · rintro (⟨s, hs, _⟩ | ⟨s, hs, _⟩) <;> exact (List.getElem?_eq_some_iff.1 hs).1
      · intro hi
        by_cases hf : subs[i].hostHaloId = -1
        · exact Or.inr ⟨_, List.getElem?_eq_getElem hi, hf⟩
        · exact Or.inl ⟨_, List.getElem?_eq_getElem hi, hf⟩
  have hIF : IdxForest s3 (join (gs.map T) ++ leaves (L (-1))) := by
    refine ⟨?_, ?_, ?_⟩
    · rw [nodes_append, join_nodes, leaves_nodes]
      refine List.Perm.trans (List.Perm.append ?_ (List.Perm.refl _)) hnodesL
      rw [List.map_map]
      apply List.Perm.flatten_congr
      rw [List.forall₂_map_left_iff]
      exact List.forall₂_same.2 (fun g hg => (hT g hg).2.1)
    · rw [shows_append]
      refine ⟨join_shows _ ?_, leaves_shows _ ?_⟩
      · intro f hf
        obtain ⟨g, hg, rfl⟩ := List.mem_map.1 hf
        exact (hT g hg).1
      · intro i hi
        obtain ⟨a, ha, he⟩ := (hmemL (-1) (le_refl _) (by omega) i).1 hi
        obtain ⟨b, hb, _, _, hn⟩ := hall i a ha
        exact ⟨b, hb, hn he⟩
    · intro i b hb
      obtain ⟨a, ha, hp⟩ := hback i b hb
      obtain ⟨hh1, hh2⟩ := hhost a (List.mem_of_getElem? ha)
      rw [roots_append, join_roots, leaves_roots, List.mem_append, List.mem_flatten]
      by_cases hf : a.hostHaloId = -1
      · constructor
        · intro _
          exact Or.inr ((hmemL (-1) (le_refl _) (by omega) i).2 ⟨a, ha, hf⟩)
        · intro _
          exact (hrankf i b hb (by rw [(hph a b hp).1, hf])).1
      · rw [hrank i b hb a.hostHaloId (by omega) hh2 (hph a b hp).1]
        have hLi : L a.hostHaloId ∈ gs := by
          have := hLgs a.hostHaloId.toNat (by omega)
          rwa [show ((a.hostHaloId.toNat : Nat) : Int) = a.hostHaloId by omega] at this
        constructor
        · intro h
          left
          refine ⟨(T (L a.hostHaloId)).roots, List.mem_map.2 ⟨_, List.mem_map.2 ⟨_, hLi, rfl⟩, rfl⟩, ?_⟩
          rw [(hT _ hLi).2.2.1, h]
          simp
        · rintro (⟨l, hl, hi⟩ | h)
          · obtain ⟨f, hf', rfl⟩ := List.mem_map.1 hl
            obtain ⟨g, hg, rfl⟩ := List.mem_map.1 hf'
            rw [(hT g hg).2.2.1] at hi
            obtain ⟨h, hh, rfl⟩ := hgsmem g hg
            have hhd : (L (h : Int)).head? = some i := by simpa using hi
            have him : i ∈ L (h : Int) := List.mem_of_head? hhd
            obtain ⟨a', ha', he⟩ := (hmemL h (by omega) (by omega) i).1 him
            rw [ha] at ha'
            cases ha'
            rw [he]
            exact hhd
          · obtain ⟨a', ha', he⟩ := (hmemL (-1) (le_refl _) (by omega) i).1 h
            rw [ha] at ha'
            cases ha'
            exact absurd he hf
  have hids3 : s3.map Sub.trackId = subs.map Sub.trackId := by
    apply List.ext_getElem?
    intro i
    rw [List.getElem?_map, List.getElem?_map]
    cases ha : subs[i]? with
    | none =>
      rw [List.getElem?_eq_none_iff] at ha
      rw [List.getElem?_eq_none (by omega)]
    | some a =>
      obtain ⟨b, hb, hp, _⟩ := hall i a ha
      rw [hb, Option.map_some, Option.map_some, (hph a b hp).2.1]
  -- last steps
  obtain ⟨out, e4, p4⟩ := finish_ok snap haloIds s3 (by
      intro b hb
      obtain ⟨i, hi, rfl⟩ := List.getElem_of_mem hb
      obtain ⟨a, ha, hp⟩ := hback i _ (List.getElem?_eq_getElem hi)
      rw [(hph _ _ hp).1]
      exact hhost a (List.mem_of_getElem? ha)) (by
      intro b hb
      obtain ⟨i, hi, rfl⟩ := List.getElem_of_mem hb
      obtain ⟨l, hl⟩ := shows_mem hIF.shows_ (hIF.mem.2 hi)
      refine ⟨l, ?_, ?_⟩
      · obtain ⟨b, hb, e⟩ := hl
        rw [List.getElem?_eq_getElem hi] at hb
        cases hb
        exact e
      · intro j hj
        exact hIF.mem.1 (isChild_mem (kids_isChild (idxKids_unique s3) hl hj hIF.shows_ (hIF.mem.2 hi))).2) (by
      intro b hb hsn
      obtain ⟨i, hi, rfl⟩ := List.getElem_of_mem hb
      obtain ⟨a, ha, hp⟩ := hback i _ (List.getElem?_eq_getElem hi)
      obtain ⟨_, _, q3, q4⟩ := hph _ _ hp
      rw [q4, hlen3]
      exact hsink a (List.mem_of_getElem? ha) (by rw [← q3]; exact hsn))
  have hout : out.map Sub.trackId = subs.map Sub.trackId := by rw [finished_tracks p4, hids3]
  have hids3' : (s3.map Sub.trackId).Nodup := by rw [hids3]; exact hids
  have hupd : List.Forall₂ (Renewed snap haloIds subs) subs out := by
    rw [List.forall₂_iff_get]
    have hl4 : out.length = subs.length := by rw [← p4.length_eq, hlen3]
    refine ⟨hl4.symm, fun i h1 h2 => ?_⟩
    simp only [List.get_eq_getElem]
    obtain ⟨b, hb, r⟩ := forall₂_get' p4 i _ (List.getElem?_eq_getElem h2)
    obtain ⟨a, ha, hp⟩ := hback i b hb
    rw [List.getElem?_eq_getElem h1] at ha
    cases ha
    refine ⟨updated_of hp r (fun j => ?_), by unfold Located; rw [← (hph _ _ hp).1]; exact r.host⟩
    have := congrArg (fun l => l[j]?) hids3
    simp only [List.getElem?_map] at this
    simp only [trackAt, this]
  have hrankpos : ∀ (i : Nat) (b : Sub K D), s3[i]? = some b → ∀ (h : Nat), h < haloIds.length → ∀ j : Nat, (L (h : Int))[j]? = some i →
      b.hostHaloId = (h : Int) ∧ b.rank = (j : Int) := by
    intro i b hb h hh j hj
    obtain ⟨a, ha, hp⟩ := hback i b hb
    obtain ⟨b', hb', _, hr, _⟩ := hall i a ha
    rw [hb] at hb'
    cases hb'
    have hi1 : i < s1.length := by rw [l1]; exact (List.getElem?_eq_some_iff.1 ha).1
    have h2' := p2 h (by omega) (by omega) j i hj
    rw [List.getElem?_eq_getElem hi1, Option.map_some] at h2'
    obtain ⟨a', ha', he⟩ := (hmemL h (by omega) (by omega) i).1 (List.mem_of_getElem? hj)
    rw [ha] at ha'
    cases ha'
    exact ⟨by rw [(hph a b hp).1, he], by rw [hr _ h2', Sub.withRank_rank]⟩
  have hsteps : UpdateSteps sort snap haloIds heads subs out := by
    refine ⟨t, all, gs, L (-1), s1, s2, s3, et, ea, hread, e1, e2, by rw [l2, l1]; exact e3, (hL (-1) (le_refl _) (by omega)).1, e4, hlen3, hnodesL, ?_, ?_, p4⟩
    · intro h g j i hg hj
      obtain ⟨hh, rfl⟩ := hgsget h g hg
      have hi : i < s3.length := by
        rw [hlen3]
        obtain ⟨a, ha, _⟩ := (hmemL h (by omega) (by omega) i).1 (List.mem_of_getElem? hj)
        exact (List.getElem?_eq_some_iff.1 ha).1
      exact ⟨_, List.getElem?_eq_getElem hi, hrankpos i _ (List.getElem?_eq_getElem hi) h hh j hj⟩
    · intro i b hb hne
      obtain ⟨a, ha, hp⟩ := hback i b hb
      obtain ⟨h1, h2⟩ := hhost a (List.mem_of_getElem? ha)
      rw [(hph a b hp).1] at hne ⊢
      have hm : i ∈ L ((a.hostHaloId.toNat : Nat) : Int) := (hmemL _ (by omega) (by omega) i).2 ⟨a, ha, by omega⟩
      obtain ⟨j, hj⟩ := List.getElem?_of_mem hm
      refine ⟨a.hostHaloId.toNat, _, j, by omega, ?_, hj⟩
      rw [hgs, List.getElem?_map, List.getElem?_range (by omega), Option.map_some]
      simp
  refine ⟨out, ?_, hout, ⟨?_, ?_⟩, hupd, finished_forest hids3' p4 hIF, hsteps⟩
  · rw [updateLocal, et, Outcome.bind_ok, ea, Outcome.bind_ok]
    simp only
    rw [hread, Outcome.bind_ok, e1, Outcome.bind_ok, e2, Outcome.bind_ok, l2, l1, e3, Outcome.bind_ok]
    exact e4
  · -- host trees
    intro s' hs' hne
    obtain ⟨i, hi, rfl⟩ := List.getElem_of_mem hs'
    obtain ⟨b, hb, r⟩ := forall₂_get' p4 i _ (List.getElem?_eq_getElem hi)
    rcases r.host with ⟨_, h⟩ | ⟨h, hbh, hhid⟩
    · exact absurd h hne
    obtain ⟨a, ha, hp⟩ := hback i b hb
    have hhl : h < haloIds.length := (List.getElem?_eq_some_iff.1 hhid).1
    set hid := out[i].hostHaloId with hhid'
    have hiL : i ∈ L (h : Int) := (hmemL h (by omega) (by omega) i).2 ⟨a, ha, by rw [← (hph a b hp).1, hbh]⟩
    obtain ⟨c, g, hLc⟩ : ∃ c g, L (h : Int) = c :: g := by
      cases hh : L (h : Int) with
      | nil => rw [hh] at hiL; simp at hiL
      | cons c g => exact ⟨c, g, rfl⟩
    obtain ⟨k, k1, k2, k3⟩ := t3 (L (h : Int)) (hLgs h hhl) c (by rw [hLc]; rfl)
    -- members of this host
    have hmem : ∀ (j : Nat) (u : Sub K D), out[j]? = some u → (u.hostHaloId = hid ↔ j ∈ L (h : Int)) := by
      intro j u hu
      obtain ⟨b', hb', r'⟩ := forall₂_get' p4 j u hu
      obtain ⟨a', ha', hp'⟩ := hback j b' hb'
      rw [hmemL h (by omega) (by omega) j]
      constructor
      · intro he
        rcases r'.host with ⟨_, h'⟩ | ⟨h', hbh', hhid2⟩
        · exact absurd (by rw [← he, h'] : hid = -1) hne
        · rw [he] at hhid2
          have := (List.getElem?_inj hhl hhalo).1 (hhid.trans hhid2.symm)
          subst this
          exact ⟨a', ha', by rw [← (hph a' b' hp').1, hbh']⟩
      · rintro ⟨a'', ha'', he⟩
        rw [ha'] at ha''
        cases ha''
        rcases r'.host with ⟨h', _⟩ | ⟨h', hbh', hhid2⟩
        · rw [(hph a' b' hp').1] at h'
          omega
        · rw [(hph a' b' hp').1] at hbh'
          have : h' = h := by omega
          subst this
          rw [hhid] at hhid2
          exact (Option.some.inj hhid2).symm
    have hL_lt : ∀ j ∈ L (h : Int), j < s3.length := by
      intro j hj
      obtain ⟨s, hs, _⟩ := (hmemL h (by omega) (by omega) j).1 hj
      rw [hlen3]
      exact (List.getElem?_eq_some_iff.1 hs).1
    refine ⟨trackAt s3 c, k.map (trackAt s3), ?_, ?_, ?_, ?_⟩
    · exact finished_shows p4 _ k1
    · have hnd1 : ((Forest.cons c k .nil).map (trackAt s3)).nodes.Nodup := by
        rw [nodes_map]
        refine List.Nodup.map_on ?_ ((k2.nodup_iff).2 (hLnd h (by omega) (by omega)))
        intro x hx y hy e
        exact trackAt_inj hids3' (hL_lt x (k2.mem_iff.1 hx)) (hL_lt y (k2.mem_iff.1 hy)) e
      have hnd2 : ((out.filter (fun s => decide (s.hostHaloId = hid))).map Sub.trackId).Nodup := by
        refine List.Nodup.sublist (List.Sublist.map _ List.filter_sublist) ?_
        rw [hout]
        exact hids
      refine (List.perm_ext_iff_of_nodup hnd1 hnd2).2 ?_
      intro τ
      rw [nodes_map, List.mem_map, List.mem_map]
      constructor
      · rintro ⟨j, hj, rfl⟩
        have hjL := k2.mem_iff.1 hj
        have hj3 := hL_lt j hjL
        obtain ⟨u, hu, r'⟩ := forall₂_get p4 j _ (List.getElem?_eq_getElem hj3)
        refine ⟨u, List.mem_filter.2 ⟨List.mem_of_getElem? hu, ?_⟩, ?_⟩
        · exact decide_eq_true ((hmem j u hu).2 hjL)
        · rw [r'.trackId, trackAt_some (List.getElem?_eq_getElem hj3)]
      · rintro ⟨u, hu, rfl⟩
        obtain ⟨hu1, hu2⟩ := List.mem_filter.1 hu
        obtain ⟨j, hj, rfl⟩ := List.getElem_of_mem hu1
        obtain ⟨b', hb', r'⟩ := forall₂_get' p4 j _ (List.getElem?_eq_getElem hj)
        refine ⟨j, k2.mem_iff.2 ((hmem j _ (List.getElem?_eq_getElem hj)).1 (of_decide_eq_true hu2)), ?_⟩
        rw [r'.trackId, trackAt_some hb']
    · intro u hu huh
      obtain ⟨j, hj, rfl⟩ := List.getElem_of_mem hu
      obtain ⟨b', hb', r'⟩ := forall₂_get' p4 j _ (List.getElem?_eq_getElem hj)
      have hjL := (hmem j _ (List.getElem?_eq_getElem hj)).1 huh
      have hb'h : b'.hostHaloId = (h : Int) := by
        obtain ⟨a', ha', hp'⟩ := hback j b' hb'
        obtain ⟨a'', ha'', he⟩ := (hmemL h (by omega) (by omega) j).1 hjL
        rw [ha'] at ha''
        cases ha''
        rw [(hph a' b' hp').1, he]
      rw [r'.rank, hrank j b' hb' h (by omega) (by omega) hb'h, hLc, List.head?_cons, Option.some.injEq, r'.trackId,
        ← trackAt_some hb']
      constructor
      · rintro rfl; rfl
      · intro e
        exact (trackAt_inj hids3' (hL_lt j hjL) (hL_lt c (by rw [hLc]; simp)) e).symm
    · exact finished_depths p4 _ 0 k3
  · intro s' hs' hf
    obtain ⟨i, hi, rfl⟩ := List.getElem_of_mem hs'
    obtain ⟨b, hb, r⟩ := forall₂_get' p4 i _ (List.getElem?_eq_getElem hi)
    rcases r.host with ⟨h, _⟩ | ⟨h, hbh, hhid⟩
    · obtain ⟨h1, h2⟩ := hrankf i b hb h
      exact ⟨by rw [r.rank, h1], by rw [r.nested [] (by rw [h2]; rfl)]; rfl⟩
    · rw [hf] at hhid
      exact absurd (List.mem_of_getElem? hhid) hhalo'

/-- `UpdateTracks` on one process: if the groups of the (rebuilt) table can be extended with the given
heads, the result is a correct hierarchy. -/
theorem updateLocal_ok [LinearOrder K] {sort : List (Sub K D) → List Nat → List Nat} (hsort : SortsByMass sort)
    (snap : Int) (haloIds : List Int) (heads : List (List Nat)) (subs : List (Sub K D))
    (hhalo : haloIds.Nodup) (hhalo' : (-1 : Int) ∉ haloIds)
    (hhost : ∀ s ∈ subs, -1 ≤ s.hostHaloId ∧ s.hostHaloId < haloIds.length)
    (hids : (subs.map Sub.trackId).Nodup)
    (hheads : ∀ gs : List (List Nat), gs.length = haloIds.length →
      (∀ (h : Nat) (g : List Nat), gs[h]? = some g → g.Perm (membersOf true subs (h : Int))) →
      List.Forall₂ (CanExtend subs) gs heads)
    (hfield : ∀ s ∈ subs, s.hostHaloId = -1 → s.nested = [])
    (hsink : ∀ s ∈ subs, s.snapSink = snap → 0 ≤ s.sinkTrackId ∧ s.sinkTrackId < subs.length) :
    ∃ out, updateLocal sort snap haloIds heads subs = .ok out ∧ out.map Sub.trackId = subs.map Sub.trackId ∧
      Hierarchy out ∧ List.Forall₂ (Renewed snap haloIds subs) subs out ∧
      ∃ G : Forest Int, G.nodes.Perm (out.map Sub.trackId) ∧ G.Shows (trackKids out) ∧
        ∀ s ∈ out, (s.rank = 0 ↔ s.trackId ∈ G.roots) := by
  obtain ⟨out, h1, h2, h3, h4, h5, _⟩ := updateLocal_full hsort snap haloIds heads subs hhalo hhalo' hhost hids hheads hfield hsink
  exact ⟨out, h1, h2, h3, h4, h5⟩

end HBT
