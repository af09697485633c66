import Verif.Lemmas.ThreadsNest
import Verif.Lemmas.ThreadsMerge
import Verif.Lemmas.ThreadsUpdate
import Verif.Props.Run
import Verif.Lemmas.SpmdMpi
/-!
# Threads

The loops of a snapshot are shared out to OpenMP threads. However many threads a process has, however the iterations are shared out and
however the threads are scheduled, the loops end, without a data race and with the state of the sequential model (so that the results do
not depend on the threads). `Spec/Threads.lean` says what threads do, `Model/Threads.lean` has the programs.
-/
namespace HBT.Props
open HBT HBT.Model HBT.Spec HBT.Spec.Forest HBT.Threads
variable {K D E : Type}

/-- The memory of a process holds this hierarchy. -/
structure InMemory (w : World K D) (subs : List (Sub K D)) (groups heads : List (List Nat)) (field : List Nat) : Prop where
  subs : w.subs = subs
  groups : w.groups = groups
  heads : w.heads = heads
  field : w.field = field

/-- The references are local indices that form a forest before `NestSubhalos` cuts it. -/
theorem localized_all {Q P : Nat} {chunk : Nat} (hc : 0 < chunk) {sortKeys : List (Int × Int) → List (Int × Int)}
    {bsearch : Int → List (Int × Int) → Option (Int × Int)} (hs : SortSpec sortKeys) (hb : BsearchSpec bsearch)
    {prev : Fin Q → List (Sub K D)} {old new : Fin P → List (Sub K D)} {haloIds : Fin P → List Int}
    {groups : Fin P → List (List Nat)} {field order : Fin P → List Nat}
    (harr : Arrival prev old new haloIds groups field order) {G : Forest Int} (hG : Linked prev G) :
    ∃ loc, localizeNestedIds chunk sortKeys bsearch (fun r => old r ++ new r) = .ok loc ∧
      ∀ r, (loc r).length = (old r ++ new r).length ∧ ∃ F, IdxForest (loc r) F := by
  have hL := linked_moved hG harr.moved
  obtain ⟨out, e, hlen, hout⟩ := C47_localize chunk hc hs hb (fun r => old r ++ new r)
    (distinct_of_linked hL (fun r s hs => (harr.born r s hs).1)) (by
      intro r s hs' t ht
      rw [List.mem_append] at hs'
      rcases hs' with hs' | hs'
      · exact hL.nonneg t (hL.nested_mem hs' ht)
      · rw [(harr.born r s hs').2.2.1] at ht
        cases ht)
  refine ⟨out, e, fun r => ⟨hlen r, ?_⟩⟩
  refine localized_forest hL (fun r s hs => ⟨(harr.born r s hs).1, (harr.born r s hs).2.1, (harr.born r s hs).2.2.1⟩)
      hlen ?_ r
  intro r i s hs'
  obtain ⟨l, h1, h2⟩ := hout r i s hs'
  refine ⟨l, ⟨_, h1, rfl, ?_⟩, h2⟩
  simp only [Sub.withRank_rank]
  by_cases hz : 0 ≤ s.trackId ∧ ∃ q, q ≠ r ∧ ∃ u ∈ old q ++ new q, s.trackId ∈ u.nested
  · rw [if_pos hz]
    exact ⟨fun _ => Or.inr hz, fun _ => rfl⟩
  · rw [if_neg hz]
    exact ⟨Or.inl, fun h => h.resolve_right hz⟩

theorem members_apart {old : List (Sub K D)} {groups : List (List Nat)}
    (hg : ∀ (h : Nat) (g : List Nat), groups[h]? = some g → g.Perm (membersOf true old (h : Int))) (a b : Nat) (hab : a ≠ b) (x : Nat)
    (ha : memberOf groups a x) : ¬ memberOf groups b x := by
  intro hb
  obtain ⟨g, h1, h2⟩ := ha
  obtain ⟨g', h3, h4⟩ := hb
  obtain ⟨s, e1, e2, _⟩ := (mem_membersOf ..).1 ((hg a g h1).mem_iff.1 h2)
  obtain ⟨s', e3, e4, _⟩ := (mem_membersOf ..).1 ((hg b g' h3).mem_iff.1 h4)
  rw [e1] at e3
  cases e3
  rw [e2] at e4
  exact hab (by exact_mod_cast e4)

variable [LinearOrder K] [MassSum K] [LinearOrder E] [Zero E] {P : Nat} {par : Params K D} {tr : List (Σ P, Snapshot K D E P)}
  {d : Snapshot K D E P}

/-- Nesting: `LevelUpDetachedSubhalos` and the search for heads, after `LocalizeNestedIds`. -/
theorem C61_nest (hpar : par.Ok) (h : Run par (⟨P, d⟩ :: tr)) :
    ∃ loc, localizeNestedIds par.chunk par.sortKeys par.bsearch (fun r => d.old r ++ d.new r) = .ok loc ∧
      ∀ (r : Fin P) (w : World K D) (heads : List (List Nat)), InMemory w (loc r) (d.groups r) heads (d.field r) →
        heads.length = (d.groups r).length → w.isHead.length = (loc r).length →
        ∃ w' : World K D, InMemory w' (d.nested r).1 (d.groups r) (d.nested r).2 (d.field r) ∧
          Completes Races (nestPhases (loc r).length (loc r).length (d.groups r).length (d.field r).length) (memOf w) (memOf w') := by
  obtain ⟨hf, ok, ih⟩ := run_facts hpar h
  obtain ⟨⟨G, hG⟩, _, _⟩ := ih.sound
  obtain ⟨loc, e, hloc⟩ := localized_all hpar.chunk hpar.keys hpar.search ok.arrival hG
  refine ⟨loc, e, ?_⟩
  rintro r w heads ⟨e1, e2, e3, e4⟩ hl hh
  subst e3
  cases h with
  | next _ _ _ _ _ comp =>
    have hn := comp.nest
    rw [nestSubhalos, e, Outcome.bind_ok] at hn
    have hn := HBT.Spmd.allRanks_inv hn r
    obtain ⟨st, h1, hn⟩ := bind_eq_ok hn
    obtain ⟨hs, h2, hn⟩ := bind_eq_ok hn
    obtain ⟨F, hF⟩ := (hloc r).2
    have hn : d.nested r = (st, hs) := (Outcome.ok.inj hn).symm
    rw [hn]
    have hnd : w.field.Nodup := by
      rw [e4]
      exact (ok.arrival.field_ r).nodup_iff.2 (membersOf_nodup _ _ _)
    obtain ⟨w', a1, a2, a3, a4, a5⟩ := nest_completes (bad := Races) (fun _ _ h => h) (w := w) (F := F) (by rw [e1]; exact hF)
      (by rw [e2]; exact members_apart (ok.arrival.groups_ r)) hnd (by rw [hh, e1]) (by rw [hl, e2])
      (order := d.order r) (fuel := (loc r).length) (by rw [e1, (hloc r).1]; exact ok.arrival.order_ r) (out := st) (heads := hs)
      (by rw [e1, e2, e4]; exact h1) (by rw [e2]; exact h2)
    refine ⟨w', ⟨a1, by rw [a2, e2], a3, by rw [a4, e4]⟩, ?_⟩
    rw [e1, e2, e4] at a5
    exact a5

theorem run_layouts (hpar : par.Ok) (h : Run par (⟨P, d⟩ :: tr)) (r : Fin P) :
    Layout (d.nested r).1 (d.old r).length (d.groups r) (d.nested r).2 (d.field r) ∧
    Layout (d.masked r) (d.old r).length (d.groups r) (d.nested r).2 (d.field r) ∧
    (d.masked r).length = (d.old r).length + (d.new r).length ∧ Computed par d := by
  obtain ⟨hf, ok, ih⟩ := run_facts hpar h
  obtain ⟨⟨G, hG⟩, _, _⟩ := ih.sound
  cases h with
  | next _ _ _ _ _ comp =>
    have hl := layout_step par.chunk hpar.chunk hpar.keys hpar.search ok.arrival hG comp.nest r
    refine ⟨hl.2, (masked_particles hl.2 (le_refl _) (ok.maskOrder r) (comp.mask r)).1, ?_, comp⟩
    rw [← (hf.masked_ r).length_eq, (allFramed_iff.1 hl.1).1, List.length_append]

/-- Masking: `MaskSubhalos`. -/
theorem C61_mask (hpar : par.Ok) (h : Run par (⟨P, d⟩ :: tr)) (r : Fin P) (w : World K D)
    (hw : InMemory w (d.nested r).1 (d.groups r) (d.nested r).2 (d.field r)) :
    Completes Races (maskPhases (d.nested r).1.length (d.groups r).length) (memOf w) (memOf { w with subs := d.masked r }) := by
  obtain ⟨hl, _, _, comp⟩ := run_layouts hpar h r
  obtain ⟨hf, ok, ih⟩ := run_facts hpar h
  obtain ⟨e1, e2, e3, e4⟩ := hw
  have := mask_completes (bad := Races) (fun _ _ h => h) (w := w) (nold := (d.old r).length) (by rw [e1, e2, e3, e4]; exact hl)
    (fuel := (d.nested r).1.length) (order := d.maskOrder r) (by rw [e2]; exact ok.maskOrder r) (out := d.masked r)
    (by rw [e1, e2, e3]; exact comp.mask r)
  rw [e2] at this
  exact this

/-- Unbinding: the loops of `RefineParticles`. -/
theorem C61_refine (hpar : par.Ok) (h : Run par (⟨P, d⟩ :: tr)) (r : Fin P) (w : World K D)
    (hw : InMemory w (d.masked r) (d.groups r) (d.nested r).2 (d.field r)) :
    Completes Races (refinePhases par.cfg (d.env r) d.snap (d.masked r).length (d.groups r).length (d.field r).length (d.old r).length (d.new r).length)
      (memOf w) (memOf { w with subs := d.refined r }) := by
  obtain ⟨_, hl, hn, comp⟩ := run_layouts hpar h r
  obtain ⟨hf, ok, ih⟩ := run_facts hpar h
  obtain ⟨e1, e2, e3, e4⟩ := hw
  have := refine_completes (bad := Races) (fun _ _ h => h) (w := w) (nold := (d.old r).length) (by rw [e1, e2, e3, e4]; exact hl)
    (fuel := (d.masked r).length) (nnew := (d.new r).length) (by rw [e1]; exact hn) (order := d.hostOrder r) (lone := d.lone r)
    (by rw [e2]; exact ok.hostOrder r) (by rw [e4]; exact ok.lone r) (out := d.refined r)
    (cfg := par.cfg) (env := d.env r) (snap := d.snap) (by rw [e1, e2, e3]; exact comp.refine_ r)
  rw [e2, e4] at this
  exact this

/-- Merging: the loops of `MergeSubhalos`. The only accesses that may meet are writes of one value (`IsMerged=true`). -/
theorem C61_merge (hpar : par.Ok) (h : Run par (⟨P, d⟩ :: tr)) (r : Fin P) (w : World K D)
    (hw : InMemory w (d.refined r) (d.groups r) (d.nested r).2 (d.field r)) (hns : w.nestSize.length = (d.groups r).length)
    (hht : w.hostTrack = List.replicate (d.refined r).length (-1)) (him : w.isMerged = List.replicate (d.refined r).length false) :
    ∃ w' : World K D, InMemory w' (d.merged r) (d.groups r) (d.nested r).2 (d.field r) ∧
      Completes Clashes (mergePhases par.cfg (d.env' r) par.mass par.merging (d.sunk r) d.snap ((d.refined r).length + 1) (d.refined r).length
        (d.groups r).length) (memOf w) (memOf w') := by
  obtain ⟨_, _, hn, comp⟩ := run_layouts hpar h r
  obtain ⟨hf, ok, ih⟩ := run_facts hpar h
  obtain ⟨e1, e2, e3, e4⟩ := hw
  have hl := hf.layout r
  have hsnap : d.snap ≠ nullSnap := by
    have := ok.snap
    unfold nullSnap
    omega
  have hlen : (d.refined r).length = (d.old r).length + (d.new r).length := by rw [(hf.refined_ r).length, hn]
  obtain ⟨w', a1, a2, a3, a4, a5⟩ := merge_completes (w := w) (nold := (d.old r).length) (by rw [e1, e2, e3, e4]; exact hl) (by
      rw [e1]
      intro s hs ha
      obtain ⟨i, hi⟩ := List.getElem?_of_mem hs
      have hil : i < (d.masked r).length := by rw [← (hf.refined_ r).length]; exact (List.getElem?_eq_some_iff.1 hi).1
      obtain ⟨u, hu, hr⟩ := (hf.refined_ r).each i _ (List.getElem?_eq_getElem hil)
      rw [hi] at hu
      cases hu
      exact ((refinedSub_settled hpar.min hsnap hr).1 ha).2) (by rw [hns, e2]) (by rw [hht, e1]) (by rw [him, e1])
    (fuel := (d.refined r).length + 1) (by rw [e1]; omega) (order := d.mergeOrder r) (each := d.each r) (by rw [e2]; exact ok.mergeOrder r)
    (by rw [e1, hlen]; exact ok.each r) (out := d.merged r) (by rw [e1, e2, e3]; exact comp.merge r)
  refine ⟨w', ⟨a1, by rw [a2, e2], by rw [a3, e3], by rw [a4, e4]⟩, ?_⟩
  rw [e1, e2] at a5
  exact a5

/-- Updating the tracks: the loops of `UpdateTracks` after `RegisterNewTracks`. -/
theorem C61_update (hpar : par.Ok) (h : Run par (⟨P, d⟩ :: tr)) :
    ∃ reg, registerNewTracks d.merged (fun r => (d.new r).length) = .ok reg ∧
      ∀ r, ∃ table groups field, buildTable par.sortMass (d.haloIds r).length (reg r) true = .ok table ∧
        readGroups table (d.haloIds r).length 0 = .ok groups ∧ table.group (-1) = .ok field ∧
        ∀ w : World K D, InMemory w (reg r) groups (d.nested r).2 field →
          ∃ w' : World K D, InMemory w' (d.out r) (groups.map (par.sortMass (reg r))) (d.nested r).2 (par.sortMass (reg r) field) ∧
            Completes Races (updatePhases (par.sortMass (reg r)) d.snap (d.haloIds r) (reg r).length (reg r).length (d.haloIds r).length field.length)
              (memOf w) (memOf w') := by
  obtain ⟨hf, ok, ih⟩ := run_facts hpar h
  obtain ⟨reg, er, hr⟩ := hf.registered
  refine ⟨reg, er, fun r => ?_⟩
  cases h with
  | next _ _ _ _ _ comp =>
    have hu := comp.update
    rw [updateTracks, er, Outcome.bind_ok] at hu
    obtain ⟨t, gs, f, e1, e2, e3, hall⟩ := update_completes (bad := Races) (fun _ _ h => h) hpar.sort (hr r).hosts (hr r).extends_ (HBT.Spmd.allRanks_inv hu r)
    refine ⟨t, gs, f, e1, e2, e3, ?_⟩
    rintro w ⟨q1, q2, q3, q4⟩
    exact ⟨{ w with subs := d.out r, groups := gs.map (par.sortMass (reg r)), field := par.sortMass (reg r) f }, ⟨rfl, rfl, q3, rfl⟩, hall w q1 q2 q3 q4⟩

end HBT.Props
