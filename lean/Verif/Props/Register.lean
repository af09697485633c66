import Verif.Model.Register
import Verif.Lemmas.Mpi
import Verif.Lemmas.Partition
import Mathlib.Data.List.Basic
import Mathlib.Order.Lattice
import Mathlib.Algebra.Order.Ring.Rat
import Mathlib.Tactic.NormNum
/-!
# C21: TrackIds
-/
namespace HBT.Props
open HBT HBT.Model
variable {K D : Type}

/-- The subhaloes that are resolved. -/
def resolved (l : List (Sub K D)) : List (Sub K D) := l.filter (fun s => decide (1 < s.nbound))

/-- `s` with another TrackId. -/
def withId (s : Sub K D) (i : Int) : Sub K D := { s with trackId := i }

/-- The subhaloes `l` given the ids `o, o+1, ...`. -/
def numbered (l : List (Sub K D)) (o : Int) : List (Sub K D) := l.mapIdx (fun j s => withId s (o + j))

theorem compactNew_spec : ∀ (n i new : Nat) (arr : List (Sub K D)), new ≤ i → i + n = arr.length →
    ∃ arr', compactNew n i new arr = .ok (new + (resolved (arr.drop i)).length, arr') ∧
      arr'.take (new + (resolved (arr.drop i)).length) = arr.take new ++ resolved (arr.drop i) := by
  intro n
  induction n with
  | zero =>
    intro i new arr _ h2
    exact ⟨arr, by simp [compactNew, resolved, List.drop_of_length_le (show arr.length ≤ i by omega)]⟩
  | succ n ih =>
    intro i new arr h1 h2
    have hi : i < arr.length := by omega
    rw [List.drop_eq_getElem_cons hi, compactNew, Outcome.get_of_lt hi, Outcome.bind_ok]
    split
    · rename_i hp
      have hr : resolved (arr[i] :: arr.drop (i+1)) = arr[i] :: resolved (arr.drop (i+1)) := by
        unfold resolved; rw [List.filter_cons_of_pos (by simpa using hp)]
      have hst : moveSub i new arr[i] arr = .ok (arr.set new arr[i]) := by
        unfold moveSub
        split
        · exact Outcome.set_of_lt (by omega)
        · rename_i h
          have : i = new := by omega
          subst this
          simp
      rw [hst, Outcome.bind_ok, hr]
      obtain ⟨arr', e, h3⟩ := ih (i+1) (new+1) (arr.set new arr[i]) (by omega) (by simp; omega)
      rw [List.drop_set_of_lt (by omega)] at e h3
      refine ⟨arr', by rw [e]; simp; omega, ?_⟩
      rw [List.length_cons, show new + ((resolved (arr.drop (i+1))).length + 1)
        = new + 1 + (resolved (arr.drop (i+1))).length by omega, h3, List.take_add_one]
      simp [List.take_set_of_le, show new < arr.length by omega]
    · rename_i hp
      have hr : resolved (arr[i] :: arr.drop (i+1)) = resolved (arr.drop (i+1)) := by
        unfold resolved; rw [List.filter_cons_of_neg (by simpa using hp)]
      rw [hr]
      exact ih (i+1) new arr (by omega) (by omega)

theorem assignTrackIds_spec : ∀ (n i : Nat) (o : Int) (arr : List (Sub K D)), i + n = arr.length →
    assignTrackIds n i o arr = .ok (arr.take i ++ numbered (arr.drop i) o) := by
  intro n
  induction n with
  | zero =>
    intro i o arr h
    simp [assignTrackIds, numbered, List.drop_of_length_le (show arr.length ≤ i by omega),
      List.take_of_length_le (show arr.length ≤ i by omega)]
  | succ n ih =>
    intro i o arr h
    have hi : i < arr.length := by omega
    rw [assignTrackIds, Outcome.get_of_lt hi, Outcome.bind_ok, Outcome.set_of_lt hi, Outcome.bind_ok,
      ih (i+1) (o+1) _ (by simp; omega), List.drop_set_of_lt (by omega), List.drop_eq_getElem_cons hi,
      List.take_add_one]
    congr 1
    simp only [numbered, List.mapIdx_cons, List.take_set_of_le (le_refl i), List.getElem?_set_self hi,
      Option.toList_some, List.append_assoc, List.singleton_append]
    congr 2
    · simp [withId]
    · congr 1
      funext j s
      simp [withId]; omega

/-- The numbers of registered births on the ranks before `r`. -/
def birthsBefore {P : Nat} (subs : Fin P → List (Sub K D)) (nBirth : Fin P → Nat) (r : Fin P) : Nat :=
  offOf (fun r => (resolved ((subs r).drop ((subs r).length - nBirth r))).length) r

theorem numbered_ids (l : List (Sub K D)) (o : Int) :
    (numbered l o).map Sub.trackId = (List.range l.length).map (fun j : Nat => o + (j : Int)) := by
  unfold numbered
  apply List.ext_getElem?
  intro j
  rcases Nat.lt_or_ge j l.length with h | h
  · simp [h, withId]
  · rw [List.getElem?_eq_none (by simpa using h), List.getElem?_eq_none (by simpa using h)]

/-- All TrackIds over all ranks. -/
def allIds {P : Nat} (subs : Fin P → List (Sub K D)) : List Int :=
  (List.ofFn (fun r => (subs r).map Sub.trackId)).flatten

/-- The TrackIds are `0, …, N-1`, each once. -/
def Dense {P : Nat} (subs : Fin P → List (Sub K D)) (N : Nat) : Prop :=
  (allIds subs).Perm ((List.range N).map (fun i : Nat => (i : Int)))

theorem flatten_append_perm {β : Type} {P : Nat} (f g : Fin P → List β) :
    (List.ofFn (fun r => f r ++ g r)).flatten.Perm
      ((List.ofFn f).flatten ++ (List.ofFn g).flatten) := by
  induction P with
  | zero => simp
  | succ P ih =>
    rw [List.ofFn_succ, List.ofFn_succ, List.ofFn_succ, List.flatten_cons, List.flatten_cons, List.flatten_cons]
    refine ((ih (fun i => f i.succ) (fun i => g i.succ)).append_left (f 0 ++ g 0)).trans ?_
    simp only [List.append_assoc]
    refine List.Perm.append_left _ ?_
    rw [← List.append_assoc, ← List.append_assoc]
    exact List.Perm.append_right _ List.perm_append_comm

theorem ranges_flatten {P : Nat} (c : Fin P → Nat) (o : Nat) :
    (List.ofFn (fun r => (List.range (c r)).map (fun j => o + offOf c r + j))).flatten
      = (List.range (List.ofFn c).sum).map (fun j => o + j) := by
  induction P generalizing o with
  | zero => simp
  | succ P ih =>
    rw [List.ofFn_succ, List.flatten_cons, List.ofFn_succ, List.sum_cons, List.range_add, List.map_append]
    have h0 : offOf c 0 = 0 := by simp [offOf]
    have hs : ∀ i : Fin P, offOf c i.succ = c 0 + offOf (fun i => c i.succ) i := by
      intro i; unfold offOf; rw [List.ofFn_succ]; simp
    refine congrArg₂ (· ++ ·) ?_ ?_
    · simp [h0]
    · have := ih (fun i => c i.succ) (o + c 0)
      simp only [hs]
      rw [List.map_map]
      have e : (fun j => o + j) ∘ (fun x => c 0 + x) = fun j => o + c 0 + j := by
        funext j; simp; omega
      rw [e, ← this]
      congr 2
      funext r
      congr 1
      funext j
      omega

/-- C21, one snapshot. If before the registration the old tracks (all but the last `nBirth r` on each
rank) carry the ids `0, …, N-1`, each once, over any number of ranks, then the registration succeeds;
on each rank the old subhaloes are unchanged and stay in place; of the new ones exactly the
resolved ones are kept, in order, changed only in their id; they get the next ids, consecutive on
each rank and rank after rank; afterwards all ids are again `0, …, N'-1`, each once. -/
theorem C21_register {P : Nat} (subs : Fin P → List (Sub K D)) (nBirth : Fin P → Nat)
    (hb : ∀ r, nBirth r ≤ (subs r).length) (N : Nat)
    (hold : Dense (fun r => (subs r).take ((subs r).length - nBirth r)) N) :
    ∃ out, registerNewTracks subs nBirth = .ok out ∧
      (∀ r, out r = (subs r).take ((subs r).length - nBirth r) ++
        numbered (resolved ((subs r).drop ((subs r).length - nBirth r)))
          ((N + birthsBefore subs nBirth r : Nat) : Int)) ∧
      Dense out (N + (List.ofFn (fun r => (resolved ((subs r).drop ((subs r).length - nBirth r))).length)).sum) := by
  set old := fun r => (subs r).length - nBirth r with hOld
  set new := fun r => resolved ((subs r).drop (old r)) with hNew
  have hloc : ∀ r, registerLocal (subs r) (nBirth r) = .ok ((subs r).take (old r) ++ new r, old r) := by
    intro r
    have hbr := hb r
    obtain ⟨arr', e, h⟩ := compactNew_spec (nBirth r) (old r) (old r) (subs r) (le_refl _)
      (by simp only [hOld]; omega)
    unfold registerLocal
    rw [if_pos hbr]
    simp only
    rw [e, Outcome.bind_ok]
    simp only
    rw [h]
  have hN : (List.ofFn old).sum = N := by
    have := hold.length_eq
    unfold allIds at this
    rw [List.length_flatten, List.map_ofFn, List.length_map, List.length_range] at this
    rw [← this]
    congr 2
    funext r
    have := hb r
    simp [hOld]
  have htl : ∀ r, ((subs r).take (old r)).length = old r := by
    intro r; simp [hOld]
  have hbirth : ∀ r, ((subs r).take (old r) ++ new r).length - old r = (new r).length := by
    intro r; rw [List.length_append, htl]; omega
  refine ⟨fun r => (subs r).take (old r) ++ numbered (new r) ((N + birthsBefore subs nBirth r : Nat) : Int), ?_,
    fun r => rfl, ?_⟩
  · unfold registerNewTracks
    rw [allRanks_ok _ _ hloc, Outcome.bind_ok]
    simp only [hbirth]
    apply allRanks_ok
    intro r
    rw [assignTrackIds_spec _ _ _ _ (by rw [List.length_append, htl])]
    rw [List.take_left' (htl r), List.drop_left' (htl r)]
    congr 3
    have hsc : scanSum (fun r => (new r).length) r = birthsBefore subs nBirth r + (new r).length := by
      unfold scanSum birthsBefore offOf
      rw [sum_take_succ' _ _ (by simp)]
      congr 1
      simp
    rw [hsc, hN]
    push_cast
    omega
  · unfold Dense allIds
    simp only [List.map_append, numbered_ids]
    refine (flatten_append_perm _ _).trans ?_
    rw [List.range_add, List.map_append]
    refine List.Perm.append hold (List.Perm.of_eq ?_)
    have := congrArg (List.map (fun i : Nat => (i : Int))) (ranges_flatten (fun r => (new r).length) N)
    rw [List.map_map, List.map_flatten, List.map_ofFn] at this
    rw [List.map_map]
    rw [← this]
    congr 2
    funext r
    simp only [Function.comp_def, List.map_map]
    apply List.map_congr_left
    intro j _
    push_cast
    simp [birthsBefore, hNew, hOld]

/-- The catalogues reachable by a run on `P` ranks, over any number of snapshots. In each
snapshot the existing subhaloes are moved between ranks and changed in any way that keeps the
collection of their TrackIds (host assignment, unbinding, merging and ranking never write
`TrackId`), arbitrary new subhaloes are appended (`FeedCentrals`), and the new tracks are registered. -/
inductive Reachable (P : Nat) : (Fin P → List (Sub K D)) → Prop where
  | start : Reachable P (fun _ => [])
  | snapshot (s mid out : Fin P → List (Sub K D)) (nBirth : Fin P → Nat) (hs : Reachable P s)
      (hb : ∀ r, nBirth r ≤ (mid r).length)
      (hkeep : (allIds (fun r => (mid r).take ((mid r).length - nBirth r))).Perm (allIds s))
      (hreg : registerNewTracks mid nBirth = .ok out) : Reachable P out

/-- C21. After every snapshot of every history the TrackIds over all ranks are exactly `0, …, N-1`,
each held by one subhalo. -/
theorem C21_dense_forever {P : Nat} (s : Fin P → List (Sub K D)) (h : Reachable P s) :
    ∃ N, Dense s N := by
  induction h with
  | start =>
    refine ⟨0, ?_⟩
    simp [Dense, allIds]
  | snapshot s mid out nBirth hs hb hkeep hreg ih =>
    obtain ⟨N, hN⟩ := ih
    obtain ⟨out', e, _, h⟩ := C21_register mid nBirth hb N (hkeep.trans hN)
    rw [hreg] at e
    cases e
    exact ⟨_, h⟩

/-- C21. The next snapshot never stops at the registration, and no id is ever lost: every id in use
stays in use. -/
theorem C21_ids_persist {P : Nat} (s mid : Fin P → List (Sub K D)) (nBirth : Fin P → Nat) (hs : Reachable P s)
    (hb : ∀ r, nBirth r ≤ (mid r).length)
    (hkeep : (allIds (fun r => (mid r).take ((mid r).length - nBirth r))).Perm (allIds s)) :
    ∃ out, registerNewTracks mid nBirth = .ok out ∧ Reachable P out ∧
      (∀ i ∈ allIds s, i ∈ allIds out) ∧
      ∀ (r : Fin P) (k : Nat), k < (mid r).length - nBirth r → (out r)[k]? = (mid r)[k]? := by
  obtain ⟨N, hN⟩ := C21_dense_forever s hs
  obtain ⟨out, e, h1, h2⟩ := C21_register mid nBirth hb N (hkeep.trans hN)
  refine ⟨out, e, Reachable.snapshot s mid out nBirth hs hb hkeep e, ?_, ?_⟩
  · intro i hi
    rw [h2.mem_iff]
    have := hN.mem_iff.1 hi
    rw [List.mem_map] at this ⊢
    obtain ⟨a, ha, rfl⟩ := this
    exact ⟨a, by rw [List.mem_range] at ha ⊢; omega, rfl⟩
  · intro r k hk
    have hbr := hb r
    rw [h1 r, List.getElem?_append_left (by simp; omega), List.getElem?_take_of_lt hk]

/-- Two ranks: two old tracks, one real birth and one fake on rank 0, one birth on rank 1. -/
def exMid : Fin 2 → List (Sub ℚ Unit)
  | 0 => [ { mbound := 5, lastMaxMass := 5, trackId := 1, nbound := 5 },
           { mbound := 1, lastMaxMass := 0, nbound := 1 }, { mbound := 9, lastMaxMass := 0, nbound := 9 } ]
  | 1 => [ { mbound := 1, lastMaxMass := 5, trackId := 0, nbound := 1 },
           { mbound := 4, lastMaxMass := 0, nbound := 4 } ]
def exNBirth : Fin 2 → Nat
  | 0 => 2
  | 1 => 1
example : Dense (fun r => (exMid r).take ((exMid r).length - exNBirth r)) 2 := by
  unfold Dense; decide
example : ∃ out, registerNewTracks exMid exNBirth = .ok out ∧
    (out 0).map Sub.trackId = [1, 2] ∧ (out 1).map Sub.trackId = [0, 3] := by
  obtain ⟨out, e, h, _⟩ := C21_register exMid exNBirth (by decide) 2 (by unfold Dense; decide)
  refine ⟨out, e, ?_, ?_⟩
  · rw [h 0]; decide
  · rw [h 1]; decide

/-! ## C34: peak mass and isolation records -/

/-- What the tracking code knows about a subhalo at the end of a snapshot. -/
structure Visit (K : Type) where
  snap : Int
  mass : K
  rank : Int

/-- The subhalo after the end-of-snapshot update of each visit, oldest first. Between updates only
the mass and the rank change (as far as the two records are concerned). -/
def replay [LE K] [DecidableLE K] : List (Visit K) → Sub K D → Sub K D
  | [], s => s
  | v :: vs, s => replay vs (updateTrack v.snap { s with mbound := v.mass, rank := v.rank })

theorem replay_append [LE K] [DecidableLE K] (a b : List (Visit K)) (s : Sub K D) :
    replay (a ++ b) s = replay b (replay a s) := by
  induction a generalizing s with
  | nil => rfl
  | cons v a ih => exact ih _

theorem replay_trackId [LE K] [DecidableLE K] (vs : List (Visit K)) (s : Sub K D) :
    (replay vs s).trackId = s.trackId := by
  induction vs generalizing s with
  | nil => rfl
  | cons v vs ih =>
    rw [replay, ih]
    simp only [updateTrack]
    split_ifs <;> rfl

theorem updateTrack_mass [LE K] [DecidableLE K] (snap : Int) (t : Sub K D) (m : K) (k : Int)
    (h : t.trackId ≠ nullTrack) :
    (updateTrack snap { t with mbound := m, rank := k }).lastMaxMass
        = (if t.lastMaxMass ≤ m then m else t.lastMaxMass) ∧
    (updateTrack snap { t with mbound := m, rank := k }).snapMaxMass
        = (if t.lastMaxMass ≤ m then snap else t.snapMaxMass) := by
  simp only [updateTrack, if_neg h]
  by_cases hk : k = 0 <;> by_cases hm : t.lastMaxMass ≤ m <;> simp [hk, hm]

/-- C34. For a subhalo starting with the records of the constructor (`LastMaxMass` zero, no
snapshots) and a registered TrackId, after every non-empty history of visits with
non-negative masses: `LastMaxMass` is the largest mass so far, the recorded snapshot is that of the
latest visit attaining it, and the isolation record is that of the latest visit with rank 0, or
none if there was none. -/
theorem C34_records [LinearOrder K] [Zero K] (s : Sub K D) (hid : s.trackId ≠ nullTrack)
    (h0 : s.lastMaxMass = 0) (hi : s.snapIsolation = nullSnap) (vs : List (Visit K)) (hne : vs ≠ [])
    (hpos : ∀ v ∈ vs, 0 ≤ v.mass) :
    (∃ before v after, vs = before ++ v :: after ∧
      (replay vs s).lastMaxMass = v.mass ∧ (replay vs s).snapMaxMass = v.snap ∧
      (∀ w ∈ vs, w.mass ≤ v.mass) ∧ ∀ w ∈ after, w.mass < v.mass) ∧
    ((∃ before v after, vs = before ++ v :: after ∧ v.rank = 0 ∧ (replay vs s).snapIsolation = v.snap ∧
      ∀ w ∈ after, w.rank ≠ 0) ∨
     ((∀ v ∈ vs, v.rank ≠ 0) ∧ (replay vs s).snapIsolation = nullSnap)) := by
  induction vs using List.reverseRecOn with
  | nil => exact absurd rfl hne
  | append_singleton vs v ih =>
    have hidr : (replay vs s).trackId ≠ nullTrack := by rw [replay_trackId]; exact hid
    rw [replay_append]
    simp only [replay]
    set r := replay vs s with hr
    constructor
    · -- peak mass
      rcases Decidable.eq_or_ne vs [] with rfl | hvs
      · have hrs : r = s := rfl
        refine ⟨[], v, [], rfl, ?_⟩
        have hm : s.lastMaxMass ≤ v.mass := by rw [h0]; exact hpos v (by simp)
        obtain ⟨u1, u2⟩ := updateTrack_mass v.snap r v.mass v.rank hidr
        rw [u1, u2, hrs, if_pos hm, if_pos hm]
        simp
      · obtain ⟨⟨before, u, after, e, e1, e2, e3, e4⟩, _⟩ := ih hvs (fun w hw => hpos w (by simp [hw]))
        obtain ⟨u1, u2⟩ := updateTrack_mass v.snap r v.mass v.rank hidr
        rw [u1, u2, e1, e2]
        by_cases hm : u.mass ≤ v.mass
        · refine ⟨vs, v, [], rfl, ?_⟩
          have hall : ∀ w ∈ vs ++ [v], w.mass ≤ v.mass := by
            intro w hw
            rw [List.mem_append, List.mem_singleton] at hw
            rcases hw with hw | rfl
            · exact le_trans (e3 w hw) hm
            · exact le_refl _
          exact ⟨if_pos hm, if_pos hm, hall, fun w hw => by simp at hw⟩
        · refine ⟨before, u, after ++ [v], by simp [e], ?_, ?_, ?_, ?_⟩
          · exact if_neg hm
          · exact if_neg hm
          · intro w hw
            rw [List.mem_append, List.mem_singleton] at hw
            rcases hw with hw | rfl
            · exact e3 w hw
            · exact le_of_lt (not_le.1 hm)
          · intro w hw
            rw [List.mem_append, List.mem_singleton] at hw
            rcases hw with hw | rfl
            · exact e4 w hw
            · exact not_le.1 hm
    · -- isolation
      have hrank : (updateTrack v.snap { r with mbound := v.mass, rank := v.rank }).snapIsolation
          = if v.rank = 0 then v.snap else r.snapIsolation := by
        simp only [updateTrack, if_neg hidr]
        split_ifs <;> rfl
      rw [hrank]
      by_cases hv : v.rank = 0
      · exact Or.inl ⟨vs, v, [], rfl, hv, by simp [hv], fun w hw => by simp at hw⟩
      · rw [if_neg hv]
        rcases Decidable.eq_or_ne vs [] with rfl | hvs
        · exact Or.inr ⟨by simpa using hv, hi⟩
        · rcases (ih hvs (fun w hw => hpos w (by simp [hw]))).2 with ⟨before, u, after, e, e1, e2, e3⟩ | ⟨e1, e2⟩
          · refine Or.inl ⟨before, u, after ++ [v], by simp [e], e1, e2, ?_⟩
            intro w hw
            rw [List.mem_append, List.mem_singleton] at hw
            rcases hw with hw | rfl
            · exact e3 w hw
            · exact hv
          · refine Or.inr ⟨?_, e2⟩
            intro w hw
            rw [List.mem_append, List.mem_singleton] at hw
            rcases hw with hw | rfl
            · exact e1 w hw
            · exact hv

/-- A subhalo that has no TrackId yet is not updated. -/
theorem C34_unregistered [LE K] [DecidableLE K] (snap : Int) (s : Sub K D) (h : s.trackId = nullTrack) :
    updateTrack snap s = s := by simp [updateTrack, h]

example : (replay [⟨0, 3, 0⟩, ⟨1, 7, 0⟩, ⟨2, 7, 1⟩, ⟨3, 5, 2⟩]
    ({ mbound := 0, lastMaxMass := 0, trackId := 4 } : Sub ℚ Unit)).snapMaxMass = 2 ∧
    (replay [⟨0, 3, 0⟩, ⟨1, 7, 0⟩, ⟨2, 7, 1⟩, ⟨3, 5, 2⟩]
    ({ mbound := 0, lastMaxMass := 0, trackId := 4 } : Sub ℚ Unit)).snapIsolation = 1 := by decide +kernel
example := C34_records ({ mbound := 0, lastMaxMass := 0, trackId := 4 } : Sub ℚ Unit) (by decide) rfl rfl
  [⟨0, 3, 0⟩, ⟨1, 7, 0⟩, ⟨2, 7, 1⟩, ⟨3, 5, 2⟩] (by simp) (by simp)

end HBT.Props
