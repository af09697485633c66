import Verif.Props.Nest
import Verif.Lemmas.Visit
/-!
# The situation between `NestSubhalos` and `UpdateTracks` on one process
-/
namespace HBT
open HBT.Model HBT.Spec HBT.Spec.Forest HBT.Props
variable {K D : Type}

/-- The subhaloes of one process after `NestSubhalos`: the first `nold` are members of the hosts
`groups` (each forming one tree per head, the central first) or field subhaloes; field subhaloes and
new subhaloes nest nothing. -/
structure Layout (subs : List (Sub K D)) (nold : Nat) (groups heads : List (List Nat)) (field : List Nat) : Prop where
  le : nold ≤ subs.length
  all : (groups.flatten ++ field).Perm (List.range nold)
  forests : List.Forall₂ (GroupForest subs) groups heads
  heads_ : heads = groups.map (fun g => g.filter (isTop subs))
  lone : ∀ (i : Nat) (s : Sub K D), subs[i]? = some s → (i ∈ field ∨ nold ≤ i) → s.nested = []

theorem Layout.nodup {subs : List (Sub K D)} {nold : Nat} {groups heads : List (List Nat)} {field : List Nat}
    (h : Layout subs nold groups heads field) : groups.flatten.Nodup :=
  (List.nodup_append.1 (h.all.nodup_iff.2 List.nodup_range)).1

theorem Layout.lt {subs : List (Sub K D)} {nold : Nat} {groups heads : List (List Nat)} {field : List Nat}
    (h : Layout subs nold groups heads field) {g : List Nat} (hg : g ∈ groups) {i : Nat} (hi : i ∈ g) : i < nold := by
  have : i ∈ groups.flatten ++ field := List.mem_append_left _ (List.mem_flatten.2 ⟨g, hg, hi⟩)
  exact List.mem_range.1 (h.all.mem_iff.1 this)

theorem Layout.disjoint {subs : List (Sub K D)} {nold : Nat} {groups heads : List (List Nat)} {field : List Nat}
    (h : Layout subs nold groups heads field) {a b : Nat} {g g' : List Nat} (ha : groups[a]? = some g)
    (hb : groups[b]? = some g') (hab : a ≠ b) {x : Nat} (hx : x ∈ g) : x ∉ g' := by
  intro hx'
  have hn := h.nodup
  rw [List.nodup_flatten] at hn
  have hp := hn.2
  obtain ⟨la, rfl⟩ := List.getElem?_eq_some_iff.1 ha
  obtain ⟨lb, rfl⟩ := List.getElem?_eq_some_iff.1 hb
  rcases Nat.lt_or_gt_of_ne hab with hlt | hlt
  · exact (List.pairwise_iff_getElem.1 hp a b la lb hlt) hx hx'
  · exact (List.pairwise_iff_getElem.1 hp b a lb la hlt) hx' hx

/-- The layout survives any step that keeps nests and ranks. -/
theorem Layout.congr {subs subs' : List (Sub K D)} {nold : Nat} {groups heads : List (List Nat)} {field : List Nat}
    (h : Layout subs nold groups heads field)
    (hk : List.Forall₂ (fun s s' : Sub K D => s'.rank = s.rank ∧ s'.nested = s.nested) subs subs') :
    Layout subs' nold groups heads field where
  le := by rw [← hk.length_eq]; exact h.le
  all := h.all
  forests := by
    refine h.forests.imp ?_
    intro g hs hg
    refine hg.congr ?_
    intro i _ s hs'
    obtain ⟨b, hb, hr⟩ := forall₂_get hk i s hs'
    exact ⟨b, hb, hr.2⟩
  heads_ := by
    have : ∀ i, isTop subs' i = isTop subs i := by
      intro i
      unfold isTop
      cases hs : subs[i]? with
      | none =>
        rw [List.getElem?_eq_none_iff, hk.length_eq] at hs
        rw [List.getElem?_eq_none hs]
      | some s =>
        obtain ⟨b, hb, hr⟩ := forall₂_get hk i s hs
        rw [hb]
        simp only [hr.1]
    have h2 : isTop subs' = isTop subs := funext this
    rw [h2]
    exact h.heads_
  lone := by
    intro i s hs hi
    obtain ⟨b, hb, hr⟩ := forall₂_get' hk i s hs
    rw [hr.2]
    exact h.lone i b hb hi

/-- `NestSubhalos` produces this situation. -/
theorem layout_of_nest {old new : List (Sub K D)} {R : List (Sub K D)} {nh : Nat} {groups heads : List (List Nat)}
    {field : List Nat} {F : Forest Nat} (hfr : AllFramed (old ++ new) R) (hF : HostForest R F)
    (hheads : heads = groups.map (fun g => g.filter (isTop R)))
    (htop : ∀ c ∈ centralsOf groups, isTop R c = true)
    (hng : groups.length = nh)
    (hhosts : ∀ s ∈ old, -1 ≤ s.hostHaloId ∧ s.hostHaloId < nh)
    (hgroups : ∀ (h : Nat) (g : List Nat), groups[h]? = some g → g.Perm (membersOf true old (h : Int)))
    (hfield : field.Perm (membersOf true old (-1)))
    (hborn : ∀ s ∈ new, ∀ u ∈ old, u.hostHaloId ≠ s.hostHaloId)
    (hbh : (new.map Sub.hostHaloId).Nodup) (hb0 : ∀ s ∈ new, 0 ≤ s.hostHaloId) :
    Layout R old.length groups heads field := by
  have hRlen : R.length = (old ++ new).length := (allFramed_iff.1 hfr).1
  have hmemg : ∀ (h : Nat) (g : List Nat), groups[h]? = some g → ∀ i, i ∈ g ↔ ∃ s, old[i]? = some s ∧ s.hostHaloId = (h : Int) := by
    intro h g hg i
    rw [(hgroups h g hg).mem_iff, mem_membersOf]
    simp
  have hmemf : ∀ i, i ∈ field ↔ ∃ s, old[i]? = some s ∧ s.hostHaloId = -1 := by
    intro i
    rw [hfield.mem_iff, mem_membersOf]
    simp
  have hndg : ∀ (h : Nat) (g : List Nat), groups[h]? = some g → g.Nodup := fun h g hg =>
    ((hgroups h g hg).nodup_iff).2 (membersOf_nodup _ _ _)
  have hR : ∀ (i : Nat) (s : Sub K D), (old ++ new)[i]? = some s → ∃ b, R[i]? = some b ∧ b.hostHaloId = s.hostHaloId := by
    intro i s hs
    obtain ⟨b, hb, hf⟩ := forall₂_get hfr i s hs
    exact ⟨b, hb, (framed_same hf).2⟩
  have hR' : ∀ (i : Nat) (b : Sub K D), R[i]? = some b → ∃ s, (old ++ new)[i]? = some s ∧ b.hostHaloId = s.hostHaloId := by
    intro i b hb
    obtain ⟨s, hs, hf⟩ := forall₂_get' hfr i b hb
    exact ⟨s, hs, (framed_same hf).2⟩
  let hostAt : Nat → Option Int := fun i => (R[i]?).map Sub.hostHaloId
  have hE : F.Edges (fun a c => hostAt c = hostAt a) := by
    refine edges_imp F ?_ hF.edges
    rintro a _ c _ ⟨s, t, hs', ht', he⟩
    simp only [hostAt, hs', ht', Option.map_some, he]
  refine ⟨by rw [hRlen, List.length_append]; omega, ?_, ?_, hheads, ?_⟩
  · -- every old subhalo once
    refine (List.perm_ext_iff_of_nodup ?_ List.nodup_range).2 ?_
    · rw [List.nodup_append, List.nodup_flatten]
      refine ⟨⟨?_, ?_⟩, (hfield.nodup_iff).2 (membersOf_nodup _ _ _), ?_⟩
      · intro g hg
        obtain ⟨h, hh⟩ := List.getElem?_of_mem hg
        exact hndg h g hh
      · rw [List.pairwise_iff_getElem]
        intro a b la lb hab x hx hx'
        obtain ⟨s, hs, he⟩ := (hmemg a _ (List.getElem?_eq_getElem la) x).1 hx
        obtain ⟨s', hs', he'⟩ := (hmemg b _ (List.getElem?_eq_getElem lb) x).1 hx'
        rw [hs] at hs'
        cases hs'
        rw [he] at he'
        omega
      · intro x hx y hy hxy
        subst hxy
        obtain ⟨g, hg, hxg⟩ := List.mem_flatten.1 hx
        obtain ⟨h, hh⟩ := List.getElem?_of_mem hg
        obtain ⟨s, hs, he⟩ := (hmemg h g hh x).1 hxg
        obtain ⟨s', hs', he'⟩ := (hmemf x).1 hy
        rw [hs] at hs'
        cases hs'
        omega
    · intro i
      rw [List.mem_append, List.mem_flatten, List.mem_range]
      constructor
      · rintro (⟨g, hg, hi⟩ | hi)
        · obtain ⟨h, hh⟩ := List.getElem?_of_mem hg
          obtain ⟨s, hs, _⟩ := (hmemg h g hh i).1 hi
          exact (List.getElem?_eq_some_iff.1 hs).1
        · obtain ⟨s, hs, _⟩ := (hmemf i).1 hi
          exact (List.getElem?_eq_some_iff.1 hs).1
      · intro hi
        have hgi : old[i]? = some old[i] := List.getElem?_eq_getElem hi
        have hh := hhosts old[i] (List.getElem_mem hi)
        by_cases hm : old[i].hostHaloId = -1
        · exact Or.inr ((hmemf i).2 ⟨_, hgi, hm⟩)
        · left
          obtain ⟨n, hn⟩ : ∃ n : Nat, old[i].hostHaloId = (n : Int) := ⟨old[i].hostHaloId.toNat, by omega⟩
          have hn' : n < groups.length := by omega
          exact ⟨groups[n], List.getElem_mem hn', (hmemg n _ (List.getElem?_eq_getElem hn') i).2 ⟨_, hgi, hn⟩⟩
  · rw [hheads, List.forall₂_map_right_iff, List.forall₂_same]
    intro g hg
    obtain ⟨h, hh⟩ := List.getElem?_of_mem hg
    match g, hg, hh with
    | [], _, _ => exact .empty
    | c :: t, hg, hh =>
      have hc : isTop R c = true := htop c (List.mem_filterMap.2 ⟨c :: t, hg, rfl⟩)
      have hat : ∀ i, i ∈ F.nodes ∧ hostAt i = some (h : Int) ↔ i ∈ c :: t := by
        intro i
        rw [hmemg h _ hh, hF.mem]
        obtain ⟨u, hu, hue⟩ := (hmemg h _ hh c).1 (by simp)
        constructor
        · rintro ⟨hi, he⟩
          obtain ⟨b, hb, hbe⟩ := Option.map_eq_some_iff.1 he
          obtain ⟨s, hs, hse⟩ := hR' i b hb
          by_cases hil : i < old.length
          · rw [List.getElem?_append_left hil] at hs
            exact ⟨s, hs, by rw [← hse, hbe]⟩
          · rw [List.getElem?_append_right (by omega)] at hs
            exact absurd (by rw [hue, ← hse, hbe]) (hborn s (List.mem_of_getElem? hs) u (List.mem_of_getElem? hu))
        · rintro ⟨s, hs, he⟩
          obtain ⟨b, hb, hbe⟩ := hR i s (by
            rw [List.getElem?_append_left (List.getElem?_eq_some_iff.1 hs).1, hs])
          exact ⟨(List.getElem?_eq_some_iff.1 hb).1, by simp only [hostAt, hb, Option.map_some, hbe, he]⟩
      have hnodes := filterRoots_nodes hostAt F hE (some (h : Int))
      have hroots : (filterRoots (fun a => decide (hostAt a = some (h : Int))) F).roots.Perm ((c :: t).filter (isTop R)) := by
        rw [filterRoots_roots]
        refine (List.perm_ext_iff_of_nodup (((roots_sublist F).nodup hF.nodup).filter _)
          ((hndg h _ hh).filter _)).2 ?_
        intro i
        rw [List.mem_filter, List.mem_filter, decide_eq_true_iff]
        constructor
        · rintro ⟨h1, h2⟩
          have hn := roots_subset F h1
          refine ⟨(hat i).1 ⟨hn, h2⟩, ?_⟩
          have hi : i < R.length := hF.mem.1 hn
          simp [isTop, hi, (hF.rank i _ (List.getElem?_eq_getElem hi)).2 h1]
        · rintro ⟨h1, h2⟩
          obtain ⟨hn, he⟩ := (hat i).2 h1
          have hi : i < R.length := hF.mem.1 hn
          refine ⟨(hF.rank i _ (List.getElem?_eq_getElem hi)).1 ?_, he⟩
          simpa [isTop, hi] using h2
      obtain ⟨G, g1, g2, g3, _⟩ := exists_reorder hroots _ rfl
      have hGn : G.nodes.Perm (c :: t) := by
        refine g2.trans ?_
        rw [hnodes]
        refine (List.perm_ext_iff_of_nodup (hF.nodup.filter _) (hndg h _ hh)).2 ?_
        intro i
        rw [List.mem_filter, decide_eq_true_iff, hat]
      have hGs := g3 _ (filterRoots_shows _ F hF.shows_)
      rw [List.filter_cons, if_pos hc] at g1 ⊢
      cases G with
      | nil => simp at g1
      | cons a k rest =>
        rw [roots_cons, List.cons.injEq] at g1
        obtain ⟨rfl, g1⟩ := g1
        rw [← g1]
        exact .tops a t k rest hGs hGn
  · intro i b hb hi
    obtain ⟨s, hs, hse⟩ := hR' i b hb
    rcases hi with hi | hi
    · obtain ⟨u, hu, hue⟩ := (hmemf i).1 hi
      rw [List.getElem?_append_left (List.getElem?_eq_some_iff.1 hu).1, hu] at hs
      cases hs
      exact (hF.field i b hb (by rw [hse, hue]; rfl)).2
    · rw [List.getElem?_append_right hi] at hs
      have hmem : i ∈ F.nodes := hF.mem.2 (List.getElem?_eq_some_iff.1 hb).1
      obtain ⟨l, hl⟩ := shows_mem hF.shows_ hmem
      have hl' := hl
      obtain ⟨b', hb', hbn⟩ := hl'
      rw [hb] at hb'
      cases hb'
      rw [hbn]
      cases l with
      | nil => rfl
      | cons x l =>
        exfalso
        have hch := kids_isChild (idxKids_unique R) hl (List.mem_cons_self) hF.shows_ hmem
        obtain ⟨u, v, hu, hv, he⟩ := (edges_iff _ F).1 hF.edges _ _ hch
        rw [hb] at hu
        cases hu
        obtain ⟨w, hw, hwe⟩ := hR' x v hv
        have hwh : w.hostHaloId = s.hostHaloId := by rw [← hwe, he, hse]
        by_cases hx : x < old.length
        · rw [List.getElem?_append_left hx] at hw
          exact hborn s (List.mem_of_getElem? hs) w (List.mem_of_getElem? hw) hwh
        · rw [List.getElem?_append_right (by omega)] at hw
          have hjl : i - old.length < (new.map Sub.hostHaloId).length := by
            rw [List.length_map]; exact (List.getElem?_eq_some_iff.1 hs).1
          have := (List.getElem?_inj hjl hbh (j := x - old.length)).1 (by
            rw [List.getElem?_map, List.getElem?_map, hs, hw, Option.map_some, Option.map_some, hwh])
          have hxe : x = i := by omega
          rw [hxe] at hch
          exact not_self_child hF.nodup hch

/-- The same for all processes, from `Arrival`. -/
theorem layout_step {Q P : Nat} (chunk : Nat) (hc : 0 < chunk) {sortKeys : List (Int × Int) → List (Int × Int)}
    {bsearch : Int → List (Int × Int) → Option (Int × Int)} (hs : SortSpec sortKeys) (hb : BsearchSpec bsearch)
    {prev : Fin Q → List (Sub K D)} {old new : Fin P → List (Sub K D)} {haloIds : Fin P → List Int}
    {groups : Fin P → List (List Nat)} {field order : Fin P → List Nat}
    (harr : Arrival prev old new haloIds groups field order) {G : Forest Int} (hG : Linked prev G)
    {res : Fin P → List (Sub K D) × List (List Nat)}
    (hres : nestSubhalos chunk sortKeys bsearch order groups field (fun r => old r ++ new r) = .ok res) (r : Fin P) :
    AllFramed (old r ++ new r) (res r).1 ∧ Layout (res r).1 (old r).length (groups r) (res r).2 (field r) := by
  obtain ⟨res', e, hr⟩ := nest_step chunk hc hs hb harr hG
  rw [hres] at e
  cases e
  obtain ⟨⟨hfr, ⟨F, hF⟩, hh⟩, ht⟩ := hr r
  exact ⟨hfr, layout_of_nest hfr hF hh ht (harr.ngroups r) (harr.hosts r) (harr.groups_ r) (harr.field_ r)
    (fun s hs => (harr.born r s hs).2.2.2.2.2) (harr.bornHosts r) (fun s hs => (harr.born r s hs).2.2.2.1)⟩

end HBT
