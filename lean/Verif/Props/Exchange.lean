import Verif.Lemmas.Exchange
import Mathlib.Tactic.FinCases
/-!
# C17: querying the particles of haloes
-/
namespace HBT.Props
open HBT HBT.Model HBT.Spec
variable {D : Type}

open Classical in
/-- What the exchange does to one particle: an id below the first bound is not sent anywhere and
comes back as it was; every other particle comes back as it is in the snapshot. -/
noncomputable def exchanged {P : Nat} (bounds : List Int) (snap : Fin P → List (Particle D)) (p : Particle D) :
    Particle D :=
  if ∀ b, bounds[0]? = some b → p.id < b then p else currentOf (allParticles snap) p

/-- Position of cut `k`. -/
def cutAt (bounds : List Int) (P : Nat) (ids : List Int) (k : Nat) : Nat :=
  if k < P then (match bounds[k]? with | some b => below ids b | none => ids.length) else ids.length

theorem cutAt_lt {bounds : List Int} {P : Nat} (hl : bounds.length = P + 1) (ids : List Int) {k : Nat}
    (hk : k < P) : cutAt bounds P ids k = below ids (bounds[k]'(by omega)) := by
  unfold cutAt
  rw [if_pos hk, List.getElem?_eq_getElem (by omega)]

theorem cutAt_ge {bounds : List Int} {P : Nat} (ids : List Int) {k : Nat}
    (hk : P ≤ k) : cutAt bounds P ids k = ids.length := by
  unfold cutAt
  rw [if_neg (by omega)]

theorem cutAt_mono {bounds : List Int} {P : Nat} (hl : bounds.length = P + 1)
    (hs : bounds.Pairwise (· ≤ ·)) (ids : List Int) (k : Nat) :
    cutAt bounds P ids k ≤ cutAt bounds P ids (k+1) := by
  by_cases h1 : k + 1 < P
  · rw [cutAt_lt hl ids (by omega), cutAt_lt hl ids h1]
    exact below_mono ids (get_mono hs (by omega) (by omega))
  · rw [cutAt_ge ids (show P ≤ k + 1 by omega)]
    by_cases h2 : k < P
    · rw [cutAt_lt hl ids h2]; exact below_le _ _
    · rw [cutAt_ge ids (by omega)]

theorem cutAt_le {bounds : List Int} {P : Nat} (hl : bounds.length = P + 1) (ids : List Int) (k : Nat) :
    cutAt bounds P ids k ≤ ids.length := by
  by_cases h2 : k < P
  · rw [cutAt_lt hl ids h2]; exact below_le _ _
  · rw [cutAt_ge ids (by omega)]

theorem localSizes_range (c : Nat → Nat) (P : Nat) :
    localSizes (c P) ((List.range' 0 P).map c) = (List.range' 0 P).map (fun r => c (r+1) - c r) := by
  unfold localSizes
  apply List.ext_getElem
  · simp; omega
  · intro i h1 h2
    have hi : i < P := by simpa using h2
    simp only [List.getElem_zipWith, List.getElem_map, List.getElem_range']
    congr 1
    by_cases h : i + 1 < P
    · rw [List.getElem_append_left (by simp; omega), List.getElem_tail]
      simp
    · rw [List.getElem_append_right (by simp; omega)]
      simp
      congr 1; omega

/-- ids of a segment lie between the bounds of the rank. -/
theorem seg_range {bounds : List Int} {P : Nat} (hl : bounds.length = P + 1) (L : List (Particle D))
    (hs : (L.map Particle.id).Pairwise (· ≤ ·))
    (hlast : ∀ x ∈ L, ∀ b, bounds[P]? = some b → x.id < b) (r : Nat) (hr : r < P) (p : Particle D)
    (hp : p ∈ seg L (cutAt bounds P (L.map Particle.id)) r) :
    (∀ b, bounds[r]? = some b → b ≤ p.id) ∧ (∀ b, bounds[r+1]? = some b → p.id < b) := by
  unfold seg at hp
  have hpL : p ∈ L := List.mem_of_mem_drop (List.mem_of_mem_take hp)
  constructor
  · intro b hb
    obtain ⟨hrl, rfl⟩ := List.getElem?_eq_some_iff.mp hb
    have h1 := List.mem_of_mem_take hp
    rw [cutAt_lt hl _ hr] at h1
    have := (below_take (L.map Particle.id) bounds[r] hs).2 p.id
    apply this
    rw [← List.map_drop]
    exact List.mem_map_of_mem h1
  · intro b hb
    by_cases h : r + 1 < P
    · obtain ⟨hrl, rfl⟩ := List.getElem?_eq_some_iff.mp hb
      rw [← List.drop_take] at hp
      have hp2 : p ∈ L.take (cutAt bounds P (L.map Particle.id) (r+1)) := List.mem_of_mem_drop hp
      rw [cutAt_lt hl _ h] at hp2
      apply (below_take (L.map Particle.id) bounds[r+1] hs).1 p.id
      rw [← List.map_take]
      exact List.mem_map_of_mem hp2
    · exact hlast p hpL b (by rw [show P = r + 1 by omega]; exact hb)

/-- C17, complete description, ids below the first bound included. -/
theorem exchange_eq {P : Nat} (needHash : Bool) (chunksize : Nat) (hc : 0 < chunksize)
    (hP : P * (chunksize + 1) < 2 ^ 31) (fill : Particle D)
    {sort : List (Particle D × Nat) → List (Particle D × Nat)}
    (hsort : SortBySpec (fun q => q.1.id) sort) (bounds : List Int) (snap : Fin P → SnapRank D)
    (hpart : PartitionedById bounds (fun r => (snap r).particles)) (htab : ∀ r, TablesFilled (snap r))
    (halos : Fin P → List (List (Particle D)))
    (hids : ∀ s, ∀ h ∈ halos s, ∀ p ∈ h, ∀ b, bounds[P]? = some b → p.id < b) :
    exchange needHash chunksize fill sort bounds snap halos
      = .ok (fun s => (halos s).map (List.map (exchanged bounds (fun r => (snap r).particles)))) := by
  set loc : Fin P → List (Particle D × Nat) := fun s => sort (collectParticles (halos s)) with hloc
  set L : Fin P → List (Particle D) := fun s => (loc s).map Prod.fst with hL
  set c : Fin P → Nat → Nat := fun s => cutAt bounds P ((L s).map Particle.id) with hcdef
  have hlen := hpart.length
  have hperm : ∀ s, (loc s).Perm (halos s).flatten.zipIdx := fun s => hsort.perm _
  have hmemL : ∀ s, ∀ p ∈ L s, ∀ b, bounds[P]? = some b → p.id < b := by
    intro s p hp b hb
    have h1 : (L s).Perm (halos s).flatten := by
      have := (hperm s).map Prod.fst
      rwa [List.zipIdx_map_fst] at this
    have h2 := h1.mem_iff.mp hp
    obtain ⟨h, hh, hph⟩ := List.mem_flatten.mp h2
    exact hids s h hh p hph b hb
  have hidseq : ∀ s, (loc s).map (fun q => q.1.id) = (L s).map Particle.id := by
    intro s; rw [hL]; simp [List.map_map, Function.comp_def]
  have hsorted : ∀ s, ((L s).map Particle.id).Pairwise (· ≤ ·) := by
    intro s
    rw [← hidseq s, List.pairwise_map]
    exact hsort.sorted _
  have hcmono : ∀ s k, c s k ≤ c s (k+1) := fun s k => cutAt_mono hlen hpart.ascending _ k
  have hcP : ∀ s, c s P = (L s).length := by
    intro s; rw [hcdef]; simp only; rw [cutAt_ge _ (Nat.le_refl P)]; simp
  have hcle : ∀ s k, c s k ≤ (L s).length := by
    intro s k
    have := cutAt_le hlen ((L s).map Particle.id) k
    simpa using this
  have hLlen : ∀ s, (loc s).length = (L s).length := by intro s; simp [hL]
  have hiters : ∀ s, localIterators bounds P ((loc s).map (fun q => q.1.id))
      = .ok ((List.range' 0 P).map (c s)) := by
    intro s
    rw [hidseq s, localIterators_ok bounds P hlen hpart.ascending _ (hsorted s)
      (by
        intro x hx b hb
        obtain ⟨p, hp, rfl⟩ := List.mem_map.mp hx
        exact hmemL s p hp b hb)]
    congr 1
    apply List.ext_getElem
    · simp; omega
    · intro i h1 h2
      have hi : i < P := by simpa using h2
      simp only [List.getElem_map, List.getElem_take, List.getElem_range']
      rw [hcdef]
      simp only [Nat.zero_add, Nat.one_mul]
      rw [cutAt_lt hlen _ hi]
  have hget : ∀ (f : Nat → Nat) (r : Fin P), Outcome.get ((List.range' 0 P).map f) r.val = .ok (f r.val) := by
    intro f r
    rw [Outcome.get_of_lt (by simp)]
    simp
  have hsizes : ∀ s, localSizes (loc s).length ((List.range' 0 P).map (c s))
      = (List.range' 0 P).map (fun r => c s (r+1) - c s r) := by
    intro s
    rw [hLlen s, ← hcP s, localSizes_range]
  have hsizes' : ∀ s, localSizes (sort (collectParticles (halos s))).length ((List.range' 0 P).map (c s))
      = (List.range' 0 P).map (fun r => c s (r+1) - c s r) := hsizes
  unfold exchange
  simp only
  rw [allRanks_ok _ _ hiters, Outcome.bind_ok]
  simp only [hsizes']
  rw [allRanks_ok _ (fun s => fun r : Fin P => c s r.val)
      (fun s => allRanks_ok _ _ (fun r => hget (c s) r)), Outcome.bind_ok,
    allRanks_ok _ (fun s => fun r : Fin P => c s (r.val+1) - c s r.val)
      (fun s => allRanks_ok _ _ (fun r => hget (fun r => c s (r+1) - c s r) r)), Outcome.bind_ok,
    C11_alltoall fill chunksize hc hP _ _ (by
      intro s r
      have := hcle s (r.val+1)
      simp only [List.length_drop]
      rw [show (List.map Prod.fst (sort (collectParticles (halos s)))).length = (L s).length from rfl]
      omega), Outcome.bind_ok]
  have hseg : ∀ s (r : Fin P), ((List.map Prod.fst (sort (collectParticles (halos s)))).drop (c s r.val)).take
      (c s (r.val+1) - c s r.val) = seg (L s) (c s) r.val := fun s r => rfl
  simp only [hseg]
  rw [allRanks_ok _ (fun r => ((List.ofFn (fun s => seg (L s) (c s) r.val)).flatten).map
      (currentOf (snap r).particles))
      (fun r => queryParticles_ok needHash hsort (snap r) (htab r) (hpart.distinct r) _), Outcome.bind_ok,
    allRanks_ok _ (fun r : Fin P => fun s => offOf (fun s => c s (r.val+1) - c s r.val) s)
      (fun r => allRanks_ok _ _ (fun s => disps_ok _ s)), Outcome.bind_ok]
  have hmapflat : ∀ r : Fin P, ((List.ofFn (fun s => seg (L s) (c s) r.val)).flatten).map
      (currentOf (snap r).particles)
      = (List.ofFn (fun s => (seg (L s) (c s) r.val).map (currentOf (snap r).particles))).flatten := by
    intro r
    rw [List.map_flatten, List.map_ofFn]; rfl
  have hblk : ∀ (r : Fin P) (s : Fin P), ((seg (L s) (c s) r.val).map (currentOf (snap r).particles)).length
      = c s (r.val+1) - c s r.val := by
    intro r s
    rw [List.length_map, seg_length _ _ _ (hcle s _)]
  have hdt : ∀ (r s : Fin P), ((((List.ofFn (fun s => seg (L s) (c s) r.val)).flatten).map
      (currentOf (snap r).particles)).drop (offOf (fun s => c s (r.val+1) - c s r.val) s)).take
      (c s (r.val+1) - c s r.val) = (seg (L s) (c s) r.val).map (currentOf (snap r).particles) := by
    intro r s
    rw [hmapflat r]
    exact drop_take_ofFn (fun s => (seg (L s) (c s) r.val).map (currentOf (snap r).particles))
      (fun s => c s (r.val+1) - c s r.val) (hblk r) s
  rw [C11_alltoall fill chunksize hc hP _ _ (by
      intro r s
      have h1 := congrArg List.length (hdt r s)
      rw [hblk r s, List.length_take] at h1
      beta_reduce
      omega), Outcome.bind_ok]
  simp only [hdt]
  -- write back
  set g : Particle D → Particle D := exchanged bounds (fun r => (snap r).particles) with hg
  have hloc3 : ∀ s, writeBack ((List.range' 0 P).map (c s))
      (List.ofFn (fun r => (seg (L s) (c s) r.val).map (currentOf (snap r).particles)))
      (List.map Prod.fst (sort (collectParticles (halos s)))) = .ok ((L s).map g) := by
    intro s
    have hb : (List.ofFn (fun r : Fin P => (seg (L s) (c s) r.val).map (currentOf (snap r).particles)))
        = (List.range' 0 P).map (fun r => (seg (L s) (c s) r).map g) := by
      rw [← ofFn_eq_map_range']
      congr 1
      funext r
      apply List.map_congr_left
      intro p hp
      obtain ⟨h1, h2⟩ := seg_range hlen (L s) (hsorted s) (hmemL s) r.val r.isLt p hp
      rw [hg]
      unfold exchanged
      rw [if_neg, currentOf_local hpart r p h1 h2]
      intro hcon
      have g1 := hcon bounds[0] (by simp)
      have g2 := h1 bounds[r.val] (by simp)
      have g3 := get_mono hpart.ascending (show 0 ≤ r.val by omega) (show r.val < bounds.length by omega)
      omega
    rw [hb, writeBack_ok (c s) (hcmono s) _ P 0 _ (by
        rw [Nat.zero_add, hcP s]) (by
        intro i _ hi
        rw [List.length_map, seg_length _ _ _ (hcle s _)])]
    congr 1
    have hflat : ((List.range' 0 P).map (fun r => (seg (L s) (c s) r).map g)).flatten
        = ((L s).drop (c s 0)).map g := by
      have h1 := seg_flatten (L s) (c s) (hcmono s) 0 P
      have h2 : ((List.range' 0 P).map (fun r => (seg (L s) (c s) r).map g)).flatten
          = (((List.range' 0 P).map (seg (L s) (c s))).flatten).map g := by
        rw [List.map_flatten, List.map_map]; rfl
      rw [h2, h1, Nat.zero_add, hcP s, List.take_of_length_le (by simp)]
    have htake : (L s).take (c s 0) = ((L s).take (c s 0)).map g := by
      conv_lhs => rw [← List.map_id ((L s).take (c s 0))]
      apply List.map_congr_left
      intro p hp
      rw [hg]
      unfold exchanged
      rw [if_pos]
      · rfl
      · intro b hb
        by_cases hP0 : 0 < P
        · obtain ⟨hrl, rfl⟩ := List.getElem?_eq_some_iff.mp hb
          rw [hcdef] at hp
          simp only at hp
          rw [cutAt_lt hlen _ hP0] at hp
          apply (below_take ((L s).map Particle.id) bounds[0] (hsorted s)).1 p.id
          rw [← List.map_take]
          exact List.mem_map_of_mem hp
        · exact absurd s.isLt (by omega)
    have hdrop : (List.map Prod.fst (sort (collectParticles (halos s)))).drop (c s (0 + P)) = [] := by
      rw [Nat.zero_add, hcP s]
      exact List.drop_of_length_le (Nat.le_refl _)
    rw [hflat, hdrop, List.append_nil]
    show (L s).take (c s 0) ++ _ = _
    rw [htake, ← List.map_append, List.take_append_drop]
  rw [allRanks_ok _ _ hloc3, Outcome.bind_ok]
  have hrest : ∀ s, restoreOrder Prod.snd (((L s).map g).zip
      (List.map Prod.snd (sort (collectParticles (halos s))))) = .ok (((halos s).flatten.map g).zipIdx) := by
    intro s
    apply C18_restore_original
    have : ((L s).map g).zip (List.map Prod.snd (sort (collectParticles (halos s))))
        = (loc s).map (fun q => (g q.1, q.2)) := by
      apply List.ext_getElem
      · simp [hL, hloc]
      · intro i h1 h2; simp [hL, hloc]
    rw [this, ← zipIdx_map_pair]
    exact (hperm s).map _
  rw [allRanks_ok _ _ hrest, Outcome.bind_ok]
  apply allRanks_ok
  intro s
  rw [List.zipIdx_map_fst]
  exact restoreParticles_ok g (halos s)

/-- C17. For every number of ranks, snapshot partitioned by id, index tables of either kind and
halo lists whose ids lie in the id range of the snapshot: the query terminates without error, every
halo keeps its particle sequence, and each particle is replaced by its current record in the
snapshot, or flagged null if the snapshot no longer has it. -/
theorem C17_query {P : Nat} (needHash : Bool) (chunksize : Nat) (hc : 0 < chunksize)
    (hP : P * (chunksize + 1) < 2 ^ 31) (fill : Particle D)
    {sort : List (Particle D × Nat) → List (Particle D × Nat)}
    (hsort : SortBySpec (fun q => q.1.id) sort) (bounds : List Int) (snap : Fin P → SnapRank D)
    (hpart : PartitionedById bounds (fun r => (snap r).particles)) (htab : ∀ r, TablesFilled (snap r))
    (halos : Fin P → List (List (Particle D)))
    (hlo : ∀ s, ∀ h ∈ halos s, ∀ p ∈ h, ∀ b, bounds[0]? = some b → b ≤ p.id)
    (hhi : ∀ s, ∀ h ∈ halos s, ∀ p ∈ h, ∀ b, bounds[P]? = some b → p.id < b) :
    exchange needHash chunksize fill sort bounds snap halos
      = .ok (fun s => (halos s).map
          (List.map (currentOf (allParticles (fun r => (snap r).particles))))) := by
  rw [exchange_eq needHash chunksize hc hP fill hsort bounds snap hpart htab halos hhi]
  congr 1
  funext s
  apply List.map_congr_left
  intro h hh
  apply List.map_congr_left
  intro p hp
  unfold exchanged
  rw [if_neg]
  intro hcon
  have hb : bounds[0]? = some (bounds[0]'(by rw [hpart.length]; omega)) := by
    simp [hpart.length]
  have h1 := hcon _ hb
  have h2 := hlo s h hh p hp _ hb
  omega

/-- Finding: a particle with an id below every id of the snapshot is neither queried nor flagged;
it silently keeps its old id and properties. -/
theorem C17_low_ids_kept_partial {P : Nat} (needHash : Bool) (chunksize : Nat) (hc : 0 < chunksize)
    (hP : P * (chunksize + 1) < 2 ^ 31) (fill : Particle D)
    {sort : List (Particle D × Nat) → List (Particle D × Nat)}
    (hsort : SortBySpec (fun q => q.1.id) sort) (bounds : List Int) (snap : Fin P → SnapRank D)
    (hpart : PartitionedById bounds (fun r => (snap r).particles)) (htab : ∀ r, TablesFilled (snap r))
    (halos : Fin P → List (List (Particle D)))
    (hlow : ∀ s, ∀ h ∈ halos s, ∀ p ∈ h, ∀ b ∈ bounds, p.id < b) :
    exchange needHash chunksize fill sort bounds snap halos = .ok halos := by
  rw [exchange_eq needHash chunksize hc hP fill hsort bounds snap hpart htab halos
    (fun s h hh p hp b hb => hlow s h hh p hp b (List.mem_of_getElem? hb))]
  congr 1
  funext s
  conv_rhs => rw [← List.map_id (halos s)]
  apply List.map_congr_left
  intro h hh
  show h.map _ = h
  conv_rhs => rw [← List.map_id h]
  apply List.map_congr_left
  intro p hp
  unfold exchanged
  rw [if_pos (fun b hb => hlow s h hh p hp b (List.mem_of_getElem? hb))]
  rfl

/-- C17: an id at or above the upper end of the snapshot's id range stops the program. -/
theorem C17_high_ids_stop {P : Nat} (needHash : Bool) (chunksize : Nat) (fill : Particle D)
    {sort : List (Particle D × Nat) → List (Particle D × Nat)}
    (hsort : SortBySpec (fun q => q.1.id) sort) (bounds : List Int) (snap : Fin P → SnapRank D)
    (hpart : PartitionedById bounds (fun r => (snap r).particles))
    (halos : Fin P → List (List (Particle D)))
    (hbad : ∃ s, ∃ h ∈ halos s, ∃ p ∈ h, ∀ b, bounds[P]? = some b → b ≤ p.id) :
    exchange needHash chunksize fill sort bounds snap halos = .abort := by
  have hab : ∀ {Q : Nat} (f : Fin Q → Outcome (List Nat)), (∀ i, (∃ v, f i = .ok v) ∨ f i = .abort) →
      (∃ i, f i = .abort) → allRanks Q f = .abort := by
    intro Q
    induction Q with
    | zero => intro f _ ⟨i, _⟩; exact i.elim0
    | succ Q ih =>
      intro f hall ⟨i, hi⟩
      rw [allRanks]
      rcases hall 0 with ⟨v, h0⟩ | h0
      · rw [h0, Outcome.bind_ok]
        have : ∃ j : Fin Q, f j.succ = .abort := by
          cases i using Fin.cases with
          | zero => rw [h0] at hi; cases hi
          | succ j => exact ⟨j, hi⟩
        rw [ih _ (fun j => hall j.succ) this]; rfl
      · rw [h0]; rfl
  unfold exchange
  simp only
  rw [hab]
  · rfl
  · intro s
    by_cases hx : ∃ x ∈ (sort (collectParticles (halos s))).map (fun q => q.1.id),
        ∀ b, bounds[P]? = some b → b ≤ x
    · exact Or.inr (localIterators_abort bounds P hpart.length hpart.ascending _ hx)
    · left
      refine ⟨_, localIterators_ok bounds P hpart.length hpart.ascending _
        (by rw [List.pairwise_map]; exact hsort.sorted _) ?_⟩
      intro x hxm b hb
      by_contra hcon
      exact hx ⟨x, hxm, fun b' hb' => by rw [hb] at hb'; cases hb'; omega⟩
  · obtain ⟨s, h, hh, p, hp, hb⟩ := hbad
    refine ⟨s, localIterators_abort bounds P hpart.length hpart.ascending _ ⟨p.id, ?_, hb⟩⟩
    have hm : p ∈ (halos s).flatten := List.mem_flatten.mpr ⟨h, hh, hp⟩
    obtain ⟨i, hi, rfl⟩ := List.mem_iff_getElem.mp hm
    have : ((halos s).flatten[i], i) ∈ sort (collectParticles (halos s)) := by
      rw [(hsort.perm _).mem_iff]
      unfold collectParticles
      exact List.mem_zipIdx_iff_getElem?.mpr (by simp)
    exact List.mem_map.mpr ⟨_, this, rfl⟩

/-! A concrete run: two ranks, ids 3, 5 on rank 0 and 9 on rank 1; the particle with id 7 has left the
snapshot. -/

def exampleSortP (l : List (Particle Nat × Nat)) : List (Particle Nat × Nat) :=
  l.mergeSort (fun a b => a.1.id ≤ b.1.id)

theorem exampleSortP_spec : SortBySpec (fun q : Particle Nat × Nat => q.1.id) exampleSortP where
  perm l := List.mergeSort_perm l _
  sorted l := by
    have := List.pairwise_mergeSort (le := fun a b : Particle Nat × Nat => decide (a.1.id ≤ b.1.id))
      (by intro a b c; simp; intro h1 h2; omega) (by intro a b; simp; omega) l
    simpa [exampleSortP] using this

def exampleParts : Fin 2 → List (Particle Nat)
  | 0 => [⟨5, 50⟩, ⟨3, 30⟩]
  | 1 => [⟨9, 90⟩]

def exampleSnap (r : Fin 2) : SnapRank Nat :=
  ⟨exampleParts r, MappedTable.fill exampleSort (particleKeys (exampleParts r)) nullId,
    match (FlatTable.mk 0 [] 0 0 0).fill (particleKeys (exampleParts r)) (particleKeys (exampleParts r)) nullId with
    | .ok t => t
    | _ => ⟨0, [], 0, 0, 0⟩⟩

example (needHash : Bool) :
    exchange needHash 1024 ⟨0, 0⟩ exampleSortP [3, 8, 10] exampleSnap
      (fun s => if s = 0 then [[⟨9, 1⟩, ⟨3, 2⟩], [⟨7, 3⟩]] else [[⟨5, 4⟩]])
    = .ok (fun s => if s = 0 then [[⟨9, 90⟩, ⟨3, 30⟩], [⟨-1, 3⟩]] else [[⟨5, 50⟩]]) := by
  rw [C17_query needHash 1024 (by decide) (by decide) _ exampleSortP_spec [3, 8, 10] exampleSnap
    ⟨by decide, by decide, (by
      intro r q hq lo hi h1 h2
      fin_cases r <;> simp [exampleSnap, exampleParts] at hq h1 h2 <;> subst h1 <;> subst h2
      · rcases hq with rfl | rfl <;> decide
      · subst hq; decide), by decide, by decide⟩
    (by
      intro r
      refine ⟨⟨_, exampleSort_spec, rfl⟩, ⟨⟨0, [], 0, 0, 0⟩, _, List.Perm.refl _, ?_⟩⟩
      revert r; decide)
    _ (by simp) (by simp)]
  congr 1
  funext s
  revert s
  decide

end HBT.Props
