import Verif.Lemmas.Nest
import Verif.Props.Localize
import Verif.Props.Register
/-!
# The global hierarchy and its restriction to one process
-/
namespace HBT
open HBT.Model HBT.Spec HBT.Spec.Forest HBT.Props
variable {K D : Type}

theorem mem_allIds {P : Nat} {subs : Fin P → List (Sub K D)} {t : Int} :
    t ∈ allIds subs ↔ ∃ r, ∃ s ∈ subs r, s.trackId = t := by
  unfold allIds
  rw [List.mem_flatten]
  constructor
  · rintro ⟨l, hl, ht⟩
    obtain ⟨r, rfl⟩ := (List.mem_ofFn' _ _).1 hl
    obtain ⟨s, hs, e⟩ := List.mem_map.1 ht
    exact ⟨r, s, hs, e⟩
  · rintro ⟨r, s, hs, e⟩
    exact ⟨_, (List.mem_ofFn' _ _).2 ⟨r, rfl⟩, List.mem_map.2 ⟨s, hs, e⟩⟩

theorem allIds_inj {P : Nat} {subs : Fin P → List (Sub K D)} (h : (allIds subs).Nodup) {r r' : Fin P} {i j : Nat}
    {s t : Sub K D} (hs : (subs r)[i]? = some s) (ht : (subs r')[j]? = some t) (e : s.trackId = t.trackId) :
    r = r' ∧ i = j := by
  unfold allIds at h
  rw [List.nodup_flatten] at h
  obtain ⟨h1, h2⟩ := h
  have hm : s.trackId ∈ (subs r).map Sub.trackId := List.mem_map.2 ⟨s, List.mem_of_getElem? hs, rfl⟩
  have hm' : s.trackId ∈ (subs r').map Sub.trackId := List.mem_map.2 ⟨t, List.mem_of_getElem? ht, e.symm⟩
  have hr : r = r' := by
    by_contra hne
    rw [List.pairwise_ofFn] at h2
    rcases lt_or_gt_of_ne hne with hlt | hlt
    · exact h2 hlt hm hm'
    · exact h2 hlt hm' hm
  subst hr
  refine ⟨rfl, ?_⟩
  have hn := h1 _ ((List.mem_ofFn' _ _).2 ⟨r, rfl⟩)
  have hi : i < ((subs r).map Sub.trackId).length := by
    rw [List.length_map]; exact (List.getElem?_eq_some_iff.1 hs).1
  exact (List.getElem?_inj hi hn).1 (by
    rw [List.getElem?_map, List.getElem?_map, hs, ht, Option.map_some, Option.map_some, e])

/-- The recorded tracks (over all processes) form the forest `G`: each subhalo is in it exactly once,
its children are its nest, and the roots are the subhaloes of rank 0. -/
structure Linked {P : Nat} (old : Fin P → List (Sub K D)) (G : Forest Int) : Prop where
  nodes : G.nodes.Perm (allIds old)
  nodup : (allIds old).Nodup
  nonneg : ∀ t ∈ allIds old, 0 ≤ t
  shows_ : G.Shows (fun t l => ∃ r, trackKids (old r) t l)
  rank : ∀ r, ∀ s ∈ old r, (s.rank = 0 ↔ s.trackId ∈ G.roots)

theorem Linked.kids_unique {P : Nat} {old : Fin P → List (Sub K D)} {G : Forest Int} (h : Linked old G)
    (t : Int) (l l' : List Int) (h1 : ∃ r, trackKids (old r) t l) (h2 : ∃ r, trackKids (old r) t l') : l = l' := by
  obtain ⟨r, s, hs, e, rfl⟩ := h1
  obtain ⟨r', s', hs', e', rfl⟩ := h2
  obtain ⟨i, hi, rfl⟩ := List.getElem_of_mem hs
  obtain ⟨j, hj, rfl⟩ := List.getElem_of_mem hs'
  obtain ⟨rfl, rfl⟩ := allIds_inj h.nodup (List.getElem?_eq_getElem hi) (List.getElem?_eq_getElem hj) (by rw [e, e'])
  rfl

theorem Linked.isChild_iff {P : Nat} {old : Fin P → List (Sub K D)} {G : Forest Int} (h : Linked old G) {a c : Int} :
    IsChild a c G ↔ ∃ r, ∃ s ∈ old r, s.trackId = a ∧ c ∈ s.nested := by
  constructor
  · intro hc
    obtain ⟨l, ⟨r, s, hs, e, rfl⟩, hm⟩ := isChild_kids h.shows_ hc
    exact ⟨r, s, hs, e, hm⟩
  · rintro ⟨r, s, hs, e, hc⟩
    exact kids_isChild h.kids_unique ⟨r, s, hs, e, rfl⟩ hc h.shows_
      (h.nodes.mem_iff.2 (mem_allIds.2 ⟨r, s, hs, e⟩))

theorem Linked.nested_mem {P : Nat} {old : Fin P → List (Sub K D)} {G : Forest Int} (h : Linked old G)
    {r : Fin P} {s : Sub K D} (hs : s ∈ old r) {c : Int} (hc : c ∈ s.nested) : c ∈ allIds old :=
  h.nodes.mem_iff.1 (isChild_mem (h.isChild_iff.2 ⟨r, s, hs, rfl, hc⟩)).2

/-- The process on which a track is. -/
def rankOfTrack {P : Nat} (old : Fin P → List (Sub K D)) (t : Int) : Option (Fin P) :=
  (List.finRange P).find? (fun r => decide (t ∈ tracksOf (old r)))

theorem rankOfTrack_iff {P : Nat} {old : Fin P → List (Sub K D)} (hn : (allIds old).Nodup) (t : Int) (r : Fin P) :
    rankOfTrack old t = some r ↔ t ∈ tracksOf (old r) := by
  have key : ∀ q q', t ∈ tracksOf (old q) → t ∈ tracksOf (old q') → q = q' := by
    intro q q' h h'
    obtain ⟨s, hs, e⟩ := List.mem_map.1 h
    obtain ⟨s', hs', e'⟩ := List.mem_map.1 h'
    obtain ⟨i, hi, rfl⟩ := List.getElem_of_mem hs
    obtain ⟨j, hj, rfl⟩ := List.getElem_of_mem hs'
    exact (allIds_inj hn (List.getElem?_eq_getElem hi) (List.getElem?_eq_getElem hj) (by rw [e, e'])).1
  unfold rankOfTrack
  constructor
  · intro h
    simpa using List.find?_some h
  · intro h
    cases hf : (List.finRange P).find? (fun r => decide (t ∈ tracksOf (old r))) with
    | none =>
      rw [List.find?_eq_none] at hf
      exact absurd h (by simpa using hf r (List.mem_finRange r))
    | some q =>
      have := List.find?_some hf
      rw [key q r (by simpa using this) h]

/-- After localisation, the subhaloes of each process form a forest of local indices. New subhaloes
(`new`, without id, behind the old ones) are single nodes. -/
theorem localized_forest {P : Nat} {old new out : Fin P → List (Sub K D)} {G : Forest Int} (hL : Linked old G)
    (hnew : ∀ r, ∀ s ∈ new r, s.trackId = nullTrack ∧ s.rank = 0 ∧ s.nested = [])
    (hlen : ∀ r, (out r).length = (old r ++ new r).length)
    (hout : ∀ (r : Fin P) (i : Nat) (s : Sub K D), (old r ++ new r)[i]? = some s →
        ∃ (l : List Nat), (∃ s', (out r)[i]? = some s' ∧ s'.nested = l.map (fun j : Nat => (j : Int)) ∧
          (s'.rank = 0 ↔ s.rank = 0 ∨ (0 ≤ s.trackId ∧ ∃ q, q ≠ r ∧ ∃ u ∈ old q ++ new q, s.trackId ∈ u.nested))) ∧
          l.map (fun j => ((old r ++ new r)[j]?).map Sub.trackId)
            = (s.nested.filter (fun t => decide (t ∈ tracksOf (old r ++ new r)))).map some) (r : Fin P) :
    ∃ F, IdxForest (out r) F := by
  classical
  set keep : Int → Int → Bool := fun a c => decide (rankOfTrack old c = rankOfTrack old a) with hkeep
  set H := (cutAll keep G).1 ++ (cutAll keep G).2 with hH
  have hHnodes : H.nodes.Perm (allIds old) := by
    rw [hH, nodes_append]
    exact (cutAll_nodes keep G).trans hL.nodes
  have hHedges : H.Edges (fun a c => rankOfTrack old c = rankOfTrack old a) := by
    rw [hH, edges_append]
    obtain ⟨h1, h2⟩ := cutAll_edges keep G
    exact ⟨edges_imp _ (fun a _ c _ h => by simpa [hkeep] using h) h1,
      edges_imp _ (fun a _ c _ h => by simpa [hkeep] using h) h2⟩
  have hHshows := (shows_append _ _ _).2 (cutAll_shows keep G hL.shows_)
  rw [← hH] at hHshows
  set R := filterRoots (fun t => decide (rankOfTrack old t = some r)) H with hR
  have hRnodes : R.nodes = H.nodes.filter (fun t => decide (rankOfTrack old t = some r)) :=
    filterRoots_nodes (rankOfTrack old) H hHedges (some r)
  have hRmem : ∀ t, t ∈ R.nodes ↔ t ∈ tracksOf (old r) := by
    intro t
    rw [hRnodes, List.mem_filter, hHnodes.mem_iff]
    simp only [decide_eq_true_eq]
    rw [rankOfTrack_iff hL.nodup]
    constructor
    · exact fun h => h.2
    · intro h
      obtain ⟨s, hs, e⟩ := List.mem_map.1 h
      exact ⟨mem_allIds.2 ⟨r, s, hs, e⟩, h⟩
  have hRnd : R.nodes.Nodup := by
    rw [hRnodes]
    exact ((hHnodes.nodup_iff).2 hL.nodup).filter _
  have htnd : (tracksOf (old r)).Nodup := by
    have := hL.nodup
    unfold allIds at this
    rw [List.nodup_flatten] at this
    exact this.1 _ ((List.mem_ofFn' _ _).2 ⟨r, rfl⟩)
  have hRperm : R.nodes.Perm (tracksOf (old r)) := (List.perm_ext_iff_of_nodup hRnd htnd).2 hRmem
  -- position of a track
  set pos : Int → Nat := fun t => (tracksOf (old r)).idxOf t with hpos
  have hposi : ∀ (i : Nat) (s : Sub K D), (old r)[i]? = some s → pos s.trackId = i := by
    intro i s hs
    have hi : i < (tracksOf (old r)).length := by
      unfold tracksOf; rw [List.length_map]; exact (List.getElem?_eq_some_iff.1 hs).1
    have e : s.trackId = (tracksOf (old r))[i] := by
      have : (tracksOf (old r))[i]? = some s.trackId := by unfold tracksOf; rw [List.getElem?_map, hs]; rfl
      exact (List.getElem?_eq_some_iff.1 this).2.symm
    rw [hpos]
    simp only
    rw [e]
    exact htnd.idxOf_getElem i hi
  have hposmap : (tracksOf (old r)).map pos = List.range (old r).length := by
    apply List.ext_getElem?
    intro i
    unfold tracksOf
    rw [List.map_map, List.getElem?_map]
    by_cases hi : i < (old r).length
    · rw [List.getElem?_eq_getElem hi, Option.map_some, List.getElem?_range hi]
      congr 1
      exact hposi i _ (List.getElem?_eq_getElem hi)
    · rw [List.getElem?_eq_none (by omega), List.getElem?_eq_none (by simpa using hi)]
      rfl
  -- entries of old and new
  have hget : ∀ (i : Nat) (s : Sub K D), (old r ++ new r)[i]? = some s → 0 ≤ s.trackId → (old r)[i]? = some s := by
    intro i s hs h0
    by_cases hi : i < (old r).length
    · rwa [List.getElem?_append_left hi] at hs
    · rw [List.getElem?_append_right (by omega)] at hs
      have := (hnew r s (List.mem_of_getElem? hs)).1
      unfold nullTrack at this
      omega
  have hlocal : ∀ t, t ∈ allIds old → (t ∈ tracksOf (old r ++ new r) ↔ t ∈ tracksOf (old r)) := by
    intro t ht
    unfold tracksOf
    rw [List.map_append, List.mem_append]
    constructor
    · rintro (h | h)
      · exact h
      · obtain ⟨s, hs, e⟩ := List.mem_map.1 h
        have h1 := (hnew r s hs).1
        have h2 := hL.nonneg t ht
        unfold nullTrack at h1
        omega
    · exact Or.inl
  refine ⟨R.map pos ++ leaves ((List.range (new r).length).map (fun j => (old r).length + j)), ?_, ?_, ?_⟩
  · -- nodes
    rw [nodes_append, nodes_map, leaves_nodes, hlen r, List.length_append, List.range_add]
    refine List.Perm.append ?_ (List.Perm.refl _)
    rw [← hposmap]
    exact hRperm.map pos
  · -- nests
    rw [shows_append]
    constructor
    · refine shows_map pos R ?_ (filterRoots_shows _ H hHshows)
      rintro a ha l hl ⟨l0, ⟨q, s, hs, e, rfl⟩, rfl⟩
      have ha' := (hRmem a).1 ha
      have hq : q = r := by
        have h1 := (rankOfTrack_iff hL.nodup a r).2 ha'
        have h2 := (rankOfTrack_iff hL.nodup a q).2 (List.mem_map.2 ⟨s, hs, e⟩)
        rw [h1] at h2
        exact (Option.some.inj h2).symm
      subst hq
      obtain ⟨i, hi, rfl⟩ := List.getElem_of_mem hs
      have hio : (old q)[i]? = some (old q)[i] := List.getElem?_eq_getElem hi
      have hi2 : (old q ++ new q)[i]? = some (old q)[i] := by rw [List.getElem?_append_left hi, hio]
      obtain ⟨lN, ⟨s', hs', hn', _⟩, hmap⟩ := hout q i _ hi2
      refine ⟨s', ?_, ?_⟩
      · rw [← e, hposi i _ hio]; exact hs'
      · rw [hn']
        unfold ints
        congr 1
        have hfil : (old q)[i].nested.filter (fun t => decide (t ∈ tracksOf (old q ++ new q)))
            = (old q)[i].nested.filter (keep a) := by
          apply List.filter_congr
          intro c hc
          have hca := hL.nested_mem hs hc
          rw [hkeep]
          simp only
          rw [(rankOfTrack_iff hL.nodup a q).2 ha']
          simp only [decide_eq_decide]
          rw [hlocal c hca, rankOfTrack_iff hL.nodup]
        rw [hfil] at hmap
        -- from the tracks to the positions
        have hall : ∀ c ∈ (old q)[i].nested.filter (keep a), 0 ≤ c := fun c hc =>
          hL.nonneg c (hL.nested_mem hs (List.mem_filter.1 hc).1)
        revert hmap hall
        generalize (old q)[i].nested.filter (keep a) = m
        intro hmap hall
        clear hn' hl
        induction lN generalizing m with
        | nil =>
          cases m with
          | nil => rfl
          | cons c m => simp at hmap
        | cons j lN ih =>
          cases m with
          | nil => simp at hmap
          | cons c m =>
            rw [List.map_cons, List.map_cons, List.cons.injEq] at hmap
            obtain ⟨h1, h2⟩ := hmap
            rw [List.map_cons, ← ih m h2 (fun c hc => hall c (by simp [hc]))]
            congr 1
            cases hj : (old q ++ new q)[j]? with
            | none => rw [hj] at h1; cases h1
            | some u =>
              rw [hj, Option.map_some, Option.some.injEq] at h1
              have hc0 := hall c (by simp)
              rw [← h1, hposi j u (hget j u hj (by omega))]
    · refine leaves_shows _ ?_
      intro x hx
      obtain ⟨j, hj, rfl⟩ := List.mem_map.1 hx
      rw [List.mem_range] at hj
      have hjx : (old r ++ new r)[(old r).length + j]? = some (new r)[j] := by
        rw [List.getElem?_append_right (by omega), Nat.add_sub_cancel_left, List.getElem?_eq_getElem hj]
      obtain ⟨lN, ⟨s', hs', hn', _⟩, hmap⟩ := hout r _ _ hjx
      rw [(hnew r _ (List.getElem_mem hj)).2.2] at hmap
      have : lN = [] := by
        cases lN with
        | nil => rfl
        | cons _ _ => simp at hmap
      subst this
      exact ⟨s', hs', hn'⟩
  · -- ranks
    intro i s' hs'
    have hlt : i < (old r ++ new r).length := by
      rw [← hlen r]; exact (List.getElem?_eq_some_iff.1 hs').1
    obtain ⟨lN, ⟨s'', hs'', _, hrank⟩, _⟩ := hout r i _ (List.getElem?_eq_getElem hlt)
    rw [hs'] at hs''
    cases hs''
    rw [hrank, roots_append, List.mem_append, roots_map, leaves_roots]
    by_cases hi : i < (old r).length
    · have hio : (old r)[i]? = some (old r)[i] := List.getElem?_eq_getElem hi
      have e : (old r ++ new r)[i] = (old r)[i] := List.getElem_append_left hi
      rw [e]
      set s := (old r)[i] with hsdef
      have hsm : s ∈ old r := List.mem_of_getElem? hio
      have hid := hL.nonneg s.trackId (mem_allIds.2 ⟨r, s, hsm, rfl⟩)
      have hright : i ∉ (List.range (new r).length).map (fun j => (old r).length + j) := by
        intro h
        obtain ⟨j, _, hj⟩ := List.mem_map.1 h
        omega
      have hleft : i ∈ R.roots.map pos ↔ s.trackId ∈ R.roots := by
        constructor
        · intro h
          obtain ⟨t, ht, he⟩ := List.mem_map.1 h
          have htm := (hRmem t).1 (roots_subset R ht)
          obtain ⟨u, hu, hue⟩ := List.mem_map.1 htm
          obtain ⟨j, hj, rfl⟩ := List.getElem_of_mem hu
          have := hposi j _ (List.getElem?_eq_getElem hj)
          rw [hue, he] at this
          subst this
          rw [hue]
          exact ht
        · intro h
          exact List.mem_map.2 ⟨_, h, hposi i s hio⟩
      have hrr : rankOfTrack old s.trackId = some r := (rankOfTrack_iff hL.nodup _ r).2 (List.mem_map.2 ⟨s, hsm, rfl⟩)
      rw [hleft, hR, filterRoots_roots, List.mem_filter, hH, roots_append, List.mem_append, cutAll_roots,
        mem_cutAll_detached, hL.rank r s hsm]
      simp only [hrr, decide_true, and_true, hright, or_false]
      constructor
      · rintro (h | ⟨_, q, hq, u, hu, hm⟩)
        · exact Or.inl h
        · right
          rw [List.mem_append] at hu
          rcases hu with hu | hu
          · refine ⟨u.trackId, hL.isChild_iff.2 ⟨q, u, hu, rfl, hm⟩, ?_⟩
            rw [hkeep]
            simp only [decide_eq_false_iff_not]
            rw [hrr, (rankOfTrack_iff hL.nodup u.trackId q).2 (List.mem_map.2 ⟨u, hu, rfl⟩)]
            intro he
            exact hq (Option.some.inj he).symm
          · rw [(hnew q u hu).2.2] at hm
            cases hm
      · rintro (h | ⟨a, hc, hk⟩)
        · exact Or.inl h
        · right
          obtain ⟨q, u, hu, e', hm⟩ := hL.isChild_iff.1 hc
          refine ⟨hid, q, ?_, u, by simp [hu], hm⟩
          rintro rfl
          rw [hkeep] at hk
          simp only [decide_eq_false_iff_not] at hk
          apply hk
          rw [hrr, ← e', (rankOfTrack_iff hL.nodup u.trackId q).2 (List.mem_map.2 ⟨u, hu, rfl⟩)]
    · have hi' : (old r).length ≤ i := by omega
      have hnm : (old r ++ new r)[i] ∈ new r := by
        rw [List.getElem_append_right hi']
        exact List.getElem_mem _
      constructor
      · intro _
        right
        refine List.mem_map.2 ⟨i - (old r).length, ?_, by omega⟩
        rw [List.mem_range]
        rw [List.length_append] at hlt
        omega
      · intro _
        exact Or.inl (hnew r _ hnm).2.1

end HBT
