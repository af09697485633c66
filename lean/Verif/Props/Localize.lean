import Verif.Lemmas.Nest
import Verif.Lemmas.Mpi
import Mathlib.Data.List.Sort
import Verif.Lemmas.Update
import Verif.Props.Hash
import Verif.Props.Mpi
/-!
# C47: conversion of track references between global and local ids
-/
namespace HBT.Props
open HBT HBT.Model HBT.Spec
variable {K D : Type}

/-- Over all processes, no two subhaloes carry the same (registered) TrackId. -/
def DistinctTracks {P : Nat} (subs : Fin P → List (Sub K D)) : Prop :=
  ∀ (r r' : Fin P) (i j : Nat) (s t : Sub K D), (subs r)[i]? = some s → (subs r')[j]? = some t →
    s.trackId = t.trackId → 0 ≤ s.trackId → r = r' ∧ i = j

/-- The TrackIds of a process. -/
def tracksOf (subs : List (Sub K D)) : List Int := subs.map Sub.trackId

theorem trackIndex_spec {sort : List (Int × Int) → List (Int × Int)}
    {bsearch : Int → List (Int × Int) → Option (Int × Int)} (hs : SortSpec sort) (hb : BsearchSpec bsearch)
    (subs : List (Sub K D)) (t : Int) (ht : 0 ≤ t) :
    (∃ (i : Nat) (s : Sub K D), subs[i]? = some s ∧ s.trackId = t ∧ trackIndex sort bsearch subs t = (i : Int)) ∨
    (t ∉ tracksOf subs ∧ trackIndex sort bsearch subs t = nullTrack) := by
  have h := C08_mapped_lookup hs hb (trackKeys subs) nullTrack t ht
  unfold trackIndex
  rcases h with h | ⟨h1, h2⟩
  · left
    unfold trackKeys at h
    obtain ⟨⟨s, i⟩, hm, he⟩ := List.mem_map.1 h
    rw [List.mem_zipIdx_iff_getElem?] at hm
    simp only [Prod.mk.injEq] at he
    exact ⟨i, s, hm, he.1, he.2.symm⟩
  · right
    refine ⟨fun hm => ?_, h2⟩
    obtain ⟨s, hs', rfl⟩ := List.mem_map.1 hm
    obtain ⟨i, hi, rfl⟩ := List.getElem_of_mem hs'
    refine h1 (i : Int) ?_
    unfold trackKeys
    refine List.mem_map.2 ⟨(subs[i], i), ?_, rfl⟩
    rw [List.mem_zipIdx_iff_getElem?]
    exact List.getElem?_eq_getElem hi

theorem localizeNest_eq (idx : Int → Int) : ∀ l : List Int, localizeNest idx l =
    ((l.filter (fun t => decide (idx t ≠ nullTrack))).map idx, l.filter (fun t => decide (idx t = nullTrack)))
  | [] => rfl
  | t :: ts => by
    rw [localizeNest, localizeNest_eq idx ts]
    simp only
    by_cases h : idx t = nullTrack <;> simp [h]

theorem localizeLocal_eq (idx : Int → Int) : ∀ subs : List (Sub K D), localizeLocal idx subs =
    (subs.map (fun s => s.withNested (localizeNest idx s.nested).1),
      (subs.map (fun s => (localizeNest idx s.nested).2)).flatten)
  | [] => rfl
  | s :: subs => by
    rw [localizeLocal, localizeLocal_eq idx subs]
    simp

open Classical in
theorem levelUpReceived_ok (idx : Int → Int) : ∀ (ts : List Int) (subs : List (Sub K D)),
    (∀ t ∈ ts, idx t = nullTrack ∨ ∃ i : Nat, i < subs.length ∧ idx t = (i : Int)) →
    ∃ subs', levelUpReceived idx ts subs = .ok subs' ∧ subs'.length = subs.length ∧
      ∀ (x : Nat) (s : Sub K D), subs[x]? = some s →
        subs'[x]? = some (s.withRank (if ∃ t ∈ ts, idx t = (x : Int) then 0 else s.rank)) := by
  intro ts
  induction ts with
  | nil => intro subs _; exact ⟨subs, rfl, rfl, fun x s hs => by simpa [Sub.withRank] using hs⟩
  | cons t ts ih =>
    intro subs h
    rw [levelUpReceived]
    by_cases hn : idx t = nullTrack
    · rw [if_pos hn]
      obtain ⟨subs', e, l, p⟩ := ih subs (fun t' ht' => h t' (by simp [ht']))
      refine ⟨subs', e, l, fun x s hs => ?_⟩
      rw [p x s hs]
      have : ¬ (nullTrack = (x : Int)) := by unfold nullTrack; omega
      simp [hn, this]
    · rw [if_neg hn]
      rcases h t (by simp) with h' | ⟨i, hi, he⟩
      · exact absurd h' hn
      · obtain ⟨subs', e, l, p⟩ := ih (subs.set i (subs[i].withRank 0)) (by
          intro t' ht'
          rw [List.length_set]
          exact h t' (by simp [ht']))
        refine ⟨subs', ?_, by simpa using l, fun x s hs => ?_⟩
        · rw [he, getI_some (List.getElem?_eq_getElem hi)]
          simp only [Outcome.bind_ok, Int.toNat_natCast]
          rw [Outcome.set_of_lt hi]
          simp only [Outcome.bind_ok]
          exact e
        · by_cases hx : x = i
          · subst hx
            have es : subs[x] = s := (List.getElem?_eq_some_iff.1 hs).2
            rw [p x (s.withRank 0) (by rw [List.getElem?_set_self hi, es])]
            simp [he, Sub.withRank]
          · rw [p x s (by rw [List.getElem?_set_ne (Ne.symm hx), hs])]
            have : ¬ ((i : Int) = (x : Int)) := by omega
            simp [he, this]

open Classical in
theorem localizeRoots_ok {P : Nat} (chunk : Nat) (hc : 0 < chunk) (idx : Fin P → Int → Int) (lost : Fin P → List Int)
    (n : Fin P → Nat)
    (hidx : ∀ r q, ∀ t ∈ lost q, idx r t = nullTrack ∨ ∃ i : Nat, i < n r ∧ idx r t = (i : Int)) :
    ∀ (roots : List (Fin P)) (subs : Fin P → List (Sub K D)), (∀ r, (subs r).length = n r) →
    ∃ subs', localizeRoots chunk idx lost roots subs = .ok subs' ∧ (∀ r, (subs' r).length = n r) ∧
      ∀ (r : Fin P) (x : Nat) (s : Sub K D), (subs r)[x]? = some s →
        (subs' r)[x]? = some (s.withRank
          (if ∃ q ∈ roots, q ≠ r ∧ ∃ t ∈ lost q, idx r t = (x : Int) then 0 else s.rank)) := by
  intro roots
  induction roots with
  | nil => intro subs hn; exact ⟨subs, rfl, hn, fun r x s hs => by simpa [Sub.withRank] using hs⟩
  | cons root roots ih =>
    intro subs hn
    have hloc : ∀ r, ∃ subs1, (if r = root then .ok (subs r) else levelUpReceived (idx r) (lost root) (subs r)) = Outcome.ok subs1 ∧
        subs1.length = n r ∧ ∀ (x : Nat) (s : Sub K D), (subs r)[x]? = some s →
        subs1[x]? = some (s.withRank (if root ≠ r ∧ ∃ t ∈ lost root, idx r t = (x : Int) then 0 else s.rank)) := by
      intro r
      by_cases hr : r = root
      · refine ⟨subs r, by rw [if_pos hr], hn r, fun x s hs => ?_⟩
        simp [hr, Sub.withRank]
        rw [← hr, hs]
      · obtain ⟨subs1, e, l, p⟩ := levelUpReceived_ok (idx r) (lost root) (subs r) (by
          intro t ht
          rw [hn r]
          exact hidx r root t ht)
        refine ⟨subs1, by rw [if_neg hr, e], by rw [l, hn r], fun x s hs => ?_⟩
        rw [p x s hs]
        have : root ≠ r := Ne.symm hr
        simp [this]
    choose subs1 e1 l1 p1 using hloc
    obtain ⟨subs', e2, l2, p2⟩ := ih subs1 l1
    refine ⟨subs', ?_, l2, fun r x s hs => ?_⟩
    · rw [localizeRoots, C12_bcast chunk hc root _ (lost root) (le_refl _)]
      simp only [Outcome.bind_ok, List.take_length]
      rw [allRanks_ok _ subs1 e1]
      simp only [Outcome.bind_ok]
      exact e2
    · rw [p2 r x _ (p1 r x s hs)]
      congr 1
      by_cases h1 : root ≠ r ∧ ∃ t ∈ lost root, idx r t = (x : Int)
      · rw [if_pos h1]
        have h2 : ∃ q ∈ root :: roots, q ≠ r ∧ ∃ t ∈ lost q, idx r t = (x : Int) := ⟨root, by simp, h1⟩
        rw [if_pos h2]
        simp [Sub.withRank]
      · rw [if_neg h1]
        have h2 : (∃ q ∈ root :: roots, q ≠ r ∧ ∃ t ∈ lost q, idx r t = (x : Int)) ↔
            ∃ q ∈ roots, q ≠ r ∧ ∃ t ∈ lost q, idx r t = (x : Int) := by
          constructor
          · rintro ⟨q, hq, hh⟩
            rcases List.mem_cons.1 hq with rfl | hq
            · exact absurd hh h1
            · exact ⟨q, hq, hh⟩
          · rintro ⟨q, hq, hh⟩
            exact ⟨q, by simp [hq], hh⟩
        simp only [h2]
        simp [Sub.withRank]

open Classical in
/-- C47. `LocalizeNestedIds`, for every distribution of the subhaloes over any number of processes. It
never fails and changes nothing but nests and ranks. Each nest afterwards holds local indices; they
point to exactly those of its former entries that are on this process, in the same order; and a
subhalo that was referred to from another process gets rank 0, all other ranks are kept. -/
theorem C47_localize {P : Nat} (chunk : Nat) (hc : 0 < chunk)
    {sort : List (Int × Int) → List (Int × Int)}
    {bsearch : Int → List (Int × Int) → Option (Int × Int)} (hs : SortSpec sort) (hb : BsearchSpec bsearch)
    (subs : Fin P → List (Sub K D)) (hd : DistinctTracks subs)
    (hnn : ∀ r, ∀ s ∈ subs r, ∀ t ∈ s.nested, 0 ≤ t) :
    ∃ out, localizeNestedIds chunk sort bsearch subs = .ok out ∧ (∀ r, (out r).length = (subs r).length) ∧
      ∀ (r : Fin P) (i : Nat) (s : Sub K D), (subs r)[i]? = some s →
        ∃ (l : List Nat), (out r)[i]? = some ((s.withNested (l.map (fun j : Nat => (j : Int)))).withRank
            (if 0 ≤ s.trackId ∧ ∃ q, q ≠ r ∧ ∃ u ∈ subs q, s.trackId ∈ u.nested then 0 else s.rank)) ∧
          l.map (fun j => ((subs r)[j]?).map Sub.trackId)
            = (s.nested.filter (fun t => decide (t ∈ tracksOf (subs r)))).map some := by
  let idx := fun r => trackIndex sort bsearch (subs r)
  have hspec : ∀ r t, 0 ≤ t → (∃ (i : Nat) (s : Sub K D), (subs r)[i]? = some s ∧ s.trackId = t ∧ idx r t = (i : Int)) ∨
      (t ∉ tracksOf (subs r) ∧ idx r t = nullTrack) := fun r t ht => trackIndex_spec hs hb (subs r) t ht
  have hnull : ∀ r t, 0 ≤ t → (idx r t = nullTrack ↔ t ∉ tracksOf (subs r)) := by
    intro r t ht
    rcases hspec r t ht with ⟨i, s, h1, h2, h3⟩ | ⟨h1, h2⟩
    · constructor
      · intro h
        rw [h3] at h
        unfold nullTrack at h
        omega
      · intro h
        exact absurd (List.mem_map.2 ⟨s, List.mem_of_getElem? h1, h2⟩) h
    · exact ⟨fun _ => h1, fun _ => h2⟩
  have hlost : ∀ q t, t ∈ ((subs q).map (fun s => (localizeNest (idx q) s.nested).2)).flatten ↔
      ∃ u ∈ subs q, t ∈ u.nested ∧ t ∉ tracksOf (subs q) := by
    intro q t
    rw [List.mem_flatten]
    constructor
    · rintro ⟨l, hl, ht⟩
      obtain ⟨u, hu, rfl⟩ := List.mem_map.1 hl
      rw [localizeNest_eq] at ht
      obtain ⟨h1, h2⟩ := List.mem_filter.1 ht
      exact ⟨u, hu, h1, (hnull q t (hnn q u hu t h1)).1 (by simpa using h2)⟩
    · rintro ⟨u, hu, h1, h2⟩
      refine ⟨_, List.mem_map.2 ⟨u, hu, rfl⟩, ?_⟩
      rw [localizeNest_eq]
      exact List.mem_filter.2 ⟨h1, by simpa using (hnull q t (hnn q u hu t h1)).2 h2⟩
  obtain ⟨out, e, l, p⟩ := localizeRoots_ok chunk hc idx
    (fun q => ((subs q).map (fun s => (localizeNest (idx q) s.nested).2)).flatten) (fun r => (subs r).length) (by
      intro r q t ht
      obtain ⟨u, hu, h1, _⟩ := (hlost q t).1 ht
      rcases hspec r t (hnn q u hu t h1) with ⟨i, s, g1, _, g3⟩ | ⟨_, g2⟩
      · exact Or.inr ⟨i, (List.getElem?_eq_some_iff.1 g1).1, g3⟩
      · exact Or.inl g2) (List.finRange P)
    (fun r => (subs r).map (fun s => s.withNested (localizeNest (idx r) s.nested).1)) (fun r => by simp)
  refine ⟨out, ?_, l, ?_⟩
  · rw [localizeNestedIds]
    simp only [localizeLocal_eq]
    exact e
  · intro r i s hs'
    have hp := p r i (s.withNested (localizeNest (idx r) s.nested).1) (by simp [hs'])
    have hsm : s ∈ subs r := List.mem_of_getElem? hs'
    -- the nest
    have hl : ∀ ts : List Int, (∀ t ∈ ts, 0 ≤ t) → ∃ l : List Nat,
        (ts.filter (fun t => decide (idx r t ≠ nullTrack))).map (idx r) = l.map (fun j : Nat => (j : Int)) ∧
        l.map (fun j => ((subs r)[j]?).map Sub.trackId) = (ts.filter (fun t => decide (t ∈ tracksOf (subs r)))).map some := by
      intro ts
      induction ts with
      | nil => intro _; exact ⟨[], rfl, rfl⟩
      | cons t ts ih =>
        intro h
        obtain ⟨l, e1, e2⟩ := ih (fun t' ht' => h t' (by simp [ht']))
        have ht := h t (by simp)
        rcases hspec r t ht with ⟨j, u, g1, g2, g3⟩ | ⟨g1, g2⟩
        · have hm : t ∈ tracksOf (subs r) := List.mem_map.2 ⟨u, List.mem_of_getElem? g1, g2⟩
          have hn : idx r t ≠ nullTrack := fun h => (hnull r t ht).1 h hm
          refine ⟨j :: l, ?_, ?_⟩
          · rw [List.filter_cons, if_pos (by simpa using hn), List.map_cons, List.map_cons, e1, g3]
          · rw [List.filter_cons, if_pos (by simpa using hm), List.map_cons, List.map_cons, e2, g1, Option.map_some, g2]
        · refine ⟨l, ?_, ?_⟩
          · rw [List.filter_cons, if_neg (by simpa using g2), e1]
          · rw [List.filter_cons, if_neg (by simpa using g1), e2]
    obtain ⟨l', e1, e2⟩ := hl s.nested (hnn r s hsm)
    refine ⟨l', ?_, e2⟩
    rw [hp, localizeNest_eq]
    simp only [Sub.withNested_rank]
    rw [e1]
    have hiff : (∃ q ∈ List.finRange P, q ≠ r ∧ ∃ t ∈ ((subs q).map (fun s => (localizeNest (idx q) s.nested).2)).flatten,
        idx r t = (i : Int)) ↔ (0 ≤ s.trackId ∧ ∃ q, q ≠ r ∧ ∃ u ∈ subs q, s.trackId ∈ u.nested) := by
      constructor
      · rintro ⟨q, _, hq, t, ht, hi⟩
        obtain ⟨u, hu, h1, h2⟩ := (hlost q t).1 ht
        have ht0 := hnn q u hu t h1
        rcases hspec r t ht0 with ⟨j, v, g1, g2, g3⟩ | ⟨_, g2⟩
        · rw [g3] at hi
          have : j = i := by omega
          subst this
          rw [hs'] at g1
          cases g1
          exact ⟨by omega, q, hq, u, hu, by rw [g2]; exact h1⟩
        · rw [g2] at hi
          unfold nullTrack at hi
          omega
      · rintro ⟨h0, q, hq, u, hu, hm⟩
        refine ⟨q, List.mem_finRange q, hq, s.trackId, (hlost q _).2 ⟨u, hu, hm, ?_⟩, ?_⟩
        · intro hin
          obtain ⟨v, hv, he⟩ := List.mem_map.1 hin
          obtain ⟨j, hj, rfl⟩ := List.getElem_of_mem hv
          exact hq (hd r q i j s _ hs' (List.getElem?_eq_getElem hj) he.symm h0).1.symm
        · rcases hspec r s.trackId h0 with ⟨j, v, g1, g2, g3⟩ | ⟨g1, _⟩
          · obtain ⟨_, rfl⟩ := hd r r i j s v hs' g1 g2.symm h0
            exact g3
          · exact absurd (List.mem_map.2 ⟨s, hsm, rfl⟩) g1
    simp only [hiff]

/-- C47. `GlobalizeTrackReferences` on one process, for all subhaloes whose references are indices of
the list: each nest becomes the list of TrackIds of the subhaloes referred to, a sink recorded in
this snapshot becomes the TrackId of the sink, older sinks (already TrackIds) stay, nothing else
changes. -/
theorem C47_globalize (snap : Int) (subs : List (Sub K D))
    (hnest : ∀ s ∈ subs, ∀ k ∈ s.nested, 0 ≤ k ∧ k < subs.length)
    (hsink : ∀ s ∈ subs, s.snapSink = snap → 0 ≤ s.sinkTrackId ∧ s.sinkTrackId < subs.length) :
    ∃ out, globalize snap subs = .ok out ∧ out.length = subs.length ∧
      ∀ (i : Nat) (s : Sub K D), subs[i]? = some s → ∃ (ts : List Int) (sink : Int),
        out[i]? = some { s with nested := ts, sinkTrackId := sink } ∧
        ts.map some = s.nested.map (fun k => (subs[k.toNat]?).map Sub.trackId) ∧
        (s.snapSink = snap → some sink = (subs[s.sinkTrackId.toNat]?).map Sub.trackId) ∧
        (s.snapSink ≠ snap → sink = s.sinkTrackId) := by
  have key : ∀ l : List (Sub K D), (∀ s ∈ l, ∀ k ∈ s.nested, 0 ≤ k ∧ k < subs.length) →
      (∀ s ∈ l, s.snapSink = snap → 0 ≤ s.sinkTrackId ∧ s.sinkTrackId < subs.length) →
      ∃ out, globalizeFrom snap subs l = .ok out ∧ List.Forall₂ (fun s s' => ∃ (ts : List Int) (sink : Int),
        s' = { s with nested := ts, sinkTrackId := sink } ∧
        ts.map some = s.nested.map (fun k => (subs[k.toNat]?).map Sub.trackId) ∧
        (s.snapSink = snap → some sink = (subs[s.sinkTrackId.toNat]?).map Sub.trackId) ∧
        (s.snapSink ≠ snap → sink = s.sinkTrackId)) l out := by
    intro l
    induction l with
    | nil => intro _ _; exact ⟨[], rfl, .nil⟩
    | cons s l ih =>
      intro h1 h2
      obtain ⟨out, e, p⟩ := ih (fun t ht => h1 t (by simp [ht])) (fun t ht => h2 t (by simp [ht]))
      have hg : ∀ ks : List Int, (∀ k ∈ ks, 0 ≤ k ∧ k < subs.length) → ∃ ts, globalIds subs ks = .ok ts ∧
          ts.map some = ks.map (fun k => (subs[k.toNat]?).map Sub.trackId) := by
        intro ks
        induction ks with
        | nil => intro _; exact ⟨[], rfl, rfl⟩
        | cons k ks ihk =>
          intro hk
          obtain ⟨ts, e1, e2⟩ := ihk (fun k' hk' => hk k' (by simp [hk']))
          obtain ⟨k1, k2⟩ := hk k (by simp)
          have hlt : k.toNat < subs.length := by omega
          refine ⟨subs[k.toNat].trackId :: ts, ?_, ?_⟩
          · rw [globalIds, Outcome.getI, if_neg (by omega), Outcome.get_of_lt hlt, Outcome.bind_ok, e1, Outcome.bind_ok]
          · rw [List.map_cons, List.map_cons, e2, List.getElem?_eq_getElem hlt, Option.map_some]
      obtain ⟨ts, e1, e2⟩ := hg s.nested (h1 s (by simp))
      rw [globalizeFrom, globalizeOne, e1, Outcome.bind_ok]
      by_cases hsn : s.snapSink = snap
      · obtain ⟨k1, k2⟩ := h2 s (by simp) hsn
        have hlt : s.sinkTrackId.toNat < subs.length := by omega
        rw [if_pos hsn, Outcome.getI, if_neg (by omega), Outcome.get_of_lt hlt]
        simp only [Outcome.bind_ok]
        rw [e]
        refine ⟨_, rfl, .cons ⟨ts, subs[s.sinkTrackId.toNat].trackId, rfl, e2, fun _ => ?_, fun h => absurd hsn h⟩ p⟩
        rw [List.getElem?_eq_getElem hlt, Option.map_some]
      · rw [if_neg hsn]
        simp only [Outcome.bind_ok]
        rw [e]
        exact ⟨_, rfl, .cons ⟨ts, s.sinkTrackId, rfl, e2, fun h => absurd h hsn, fun _ => rfl⟩ p⟩
  obtain ⟨out, e, p⟩ := key subs hnest hsink
  refine ⟨out, e, p.length_eq.symm, fun i s hs => ?_⟩
  obtain ⟨s', hs', ts, sink, rfl, h⟩ := forall₂_get p i s hs
  exact ⟨ts, sink, hs', h⟩

/-- C47, round trip. Localisation followed by globalisation gives every nest back, except for the
entries that are not on the same process. -/
theorem C47_round_trip {P : Nat} (chunk : Nat) (hc : 0 < chunk)
    {sort : List (Int × Int) → List (Int × Int)}
    {bsearch : Int → List (Int × Int) → Option (Int × Int)} (hs : SortSpec sort) (hb : BsearchSpec bsearch)
    (subs : Fin P → List (Sub K D)) (hd : DistinctTracks subs)
    (hnn : ∀ r, ∀ s ∈ subs r, ∀ t ∈ s.nested, 0 ≤ t) (snap : Int)
    (hsnap : ∀ r, ∀ s ∈ subs r, s.snapSink ≠ snap) :
    ∃ out, localizeNestedIds chunk sort bsearch subs = .ok out ∧
      ∀ r, ∃ fin, globalize snap (out r) = .ok fin ∧ fin.length = (subs r).length ∧
        ∀ (i : Nat) (s : Sub K D), (subs r)[i]? = some s → ∃ s', fin[i]? = some s' ∧ s'.trackId = s.trackId ∧
          s'.nested = s.nested.filter (fun t => decide (t ∈ tracksOf (subs r))) ∧ s'.sinkTrackId = s.sinkTrackId := by
  classical
  obtain ⟨out, e, hlen, hout⟩ := C47_localize chunk hc hs hb subs hd hnn
  have hback : ∀ (r : Fin P) (i : Nat) (s' : Sub K D), (out r)[i]? = some s' → ∃ (s : Sub K D) (l : List Nat), (subs r)[i]? = some s ∧
      s'.nested = l.map (fun j : Nat => (j : Int)) ∧ s'.trackId = s.trackId ∧ s'.snapSink = s.snapSink ∧
      s'.sinkTrackId = s.sinkTrackId ∧ l.map (fun j => ((subs r)[j]?).map Sub.trackId)
            = (s.nested.filter (fun t => decide (t ∈ tracksOf (subs r)))).map some := by
    intro r i s' hs'
    have hi : i < (subs r).length := by rw [← hlen r]; exact (List.getElem?_eq_some_iff.1 hs').1
    obtain ⟨l, h1, h2⟩ := hout r i _ (List.getElem?_eq_getElem hi)
    rw [hs'] at h1
    cases h1
    exact ⟨_, l, List.getElem?_eq_getElem hi, rfl, rfl, rfl, rfl, h2⟩
  refine ⟨out, e, fun r => ?_⟩
  obtain ⟨fin, e2, hl2, h2⟩ := C47_globalize snap (out r) (by
      intro s' hs' k hk
      obtain ⟨i, hi⟩ := List.getElem?_of_mem hs'
      obtain ⟨s, l, q1, q2, _, _, _, q6⟩ := hback r i s' hi
      rw [q2] at hk
      obtain ⟨j, hj, rfl⟩ := List.mem_map.1 hk
      refine ⟨by omega, ?_⟩
      rw [hlen r]
      have hjm : ((subs r)[j]?).map Sub.trackId ∈ (s.nested.filter (fun t => decide (t ∈ tracksOf (subs r)))).map some := by
        rw [← q6]; exact List.mem_map.2 ⟨j, hj, rfl⟩
      obtain ⟨t, _, ht⟩ := List.mem_map.1 hjm
      cases hh : (subs r)[j]? with
      | none => rw [hh] at ht; cases ht
      | some u => exact_mod_cast (List.getElem?_eq_some_iff.1 hh).1) (by
      intro s' hs' hsn
      obtain ⟨i, hi⟩ := List.getElem?_of_mem hs'
      obtain ⟨s, l, q1, _, _, q4, _⟩ := hback r i s' hi
      exact absurd (by rw [← q4, hsn]) (hsnap r s (List.mem_of_getElem? q1)))
  refine ⟨fin, e2, by rw [hl2, hlen r], fun i s hs' => ?_⟩
  obtain ⟨l, h1, hm⟩ := hout r i s hs'
  obtain ⟨ts, sink, h3, h4, _, h6⟩ := h2 i _ h1
  refine ⟨_, h3, rfl, ?_, h6 (hsnap r s (List.mem_of_getElem? hs'))⟩
  simp only [Sub.withRank_nested, Sub.withNested_nested, List.map_map] at h4
  have hmap : l.map ((fun k : Int => ((out r)[k.toNat]?).map Sub.trackId) ∘ fun j : Nat => (j : Int))
      = l.map (fun j => ((subs r)[j]?).map Sub.trackId) := by
    apply List.map_congr_left
    intro j _
    simp only [Function.comp, Int.toNat_natCast]
    cases hu : (subs r)[j]? with
    | none =>
      rw [List.getElem?_eq_none_iff] at hu
      rw [List.getElem?_eq_none (by rw [hlen r]; exact hu)]
    | some u =>
      obtain ⟨l', g1, _⟩ := hout r j u hu
      rw [g1]
      rfl
  rw [hmap, hm] at h4
  exact List.map_injective_iff.2 (Option.some_injective _) h4

/-- An insertion sort by key (it computes inside the kernel). -/
def exKeySort (l : List (Int × Int)) : List (Int × Int) := l.insertionSort (fun a b => a.1 ≤ b.1)

theorem exKeySort_spec : SortSpec exKeySort where
  perm l := List.perm_insertionSort _ l
  sorted l := by
    haveI : Std.Total (fun a b : Int × Int => a.1 ≤ b.1) := ⟨fun a b => le_total a.1 b.1⟩
    haveI : IsTrans (Int × Int) (fun a b => a.1 ≤ b.1) := ⟨fun _ _ _ h h' => le_trans h h'⟩
    exact List.pairwise_insertionSort _ l

/-- Two processes: the nest of track 4 on process 0 refers to track 7 (same process) and track 9 (on
process 1), which has rank 3 there. -/
def exNests : Fin 2 → List (Sub Int Unit) := fun r =>
  if r = 0 then [ { mbound := 0, lastMaxMass := 0, trackId := 7, rank := 1 },
                  { mbound := 0, lastMaxMass := 0, trackId := 4, nested := [7, 9] } ]
  else [ { mbound := 0, lastMaxMass := 0, trackId := 2 }, { mbound := 0, lastMaxMass := 0, trackId := 9, rank := 3 } ]
example : ∃ out, localizeNestedIds 4 exKeySort exampleBsearch exNests = .ok out ∧
    (out 0).map Sub.nested = [[], [0]] ∧ (out 0).map Sub.rank = [1, 0] ∧ (out 1).map Sub.rank = [0, 0] := by
  have h : ∀ x : Outcome (Fin 2 → List (Sub Int Unit)), (match x with
      | .ok out => decide ((out 0).map Sub.nested = [[], [0]] ∧ (out 0).map Sub.rank = [1, 0] ∧ (out 1).map Sub.rank = [0, 0])
      | _ => false) = true → ∃ out, x = .ok out ∧ (out 0).map Sub.nested = [[], [0]] ∧ (out 0).map Sub.rank = [1, 0] ∧
        (out 1).map Sub.rank = [0, 0] := by
    intro x hx
    cases x with
    | ok out => exact ⟨out, rfl, of_decide_eq_true hx⟩
    | _ => cases hx
  exact h _ (by decide +kernel)
example : ∀ r, ∀ s ∈ exNests r, ∀ t ∈ s.nested, 0 ≤ t := by decide +kernel
example : DistinctTracks exNests := by
  intro r r' i j s t hs ht e _
  have key : ∀ r r' : Fin 2, ∀ i < (exNests r).length, ∀ j < (exNests r').length,
      ((exNests r)[i]?).map Sub.trackId = ((exNests r')[j]?).map Sub.trackId → r = r' ∧ i = j := by decide +kernel
  exact key r r' i (List.getElem?_eq_some_iff.1 hs).1 j (List.getElem?_eq_some_iff.1 ht).1 (by
    rw [hs, ht, Option.map_some, Option.map_some, e])

end HBT.Props
