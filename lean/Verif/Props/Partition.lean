import Verif.Lemmas.Partition
import Mathlib.Data.Multiset.Fintype
import Mathlib.Tactic.FinCases
/-!
# C15, C16: redistribution of the snapshot particles over the processes
-/
namespace HBT.Props
open HBT HBT.Model HBT.Spec
variable {D : Type}

/-! ## C16 -/

/-- C16. For every number of ranks and every distribution of at least one particle with distinct ids
(each rank's ids ascending, as `ExchangeParticles` sorts them first): every rank reaches the same
verdict, "contiguous" exactly if the ids fill an interval; and every rank learns the smallest id. -/
theorem C16_contiguous_exact {P : Nat} (ids : Fin P → List Int) (hs : ∀ r, (ids r).Pairwise (· ≤ ·))
    (hd : (List.ofFn ids).flatten.Nodup) (hne : ∃ r, ids r ≠ []) (r : Fin P) :
    ((isContiguousId (List.ofFn ids).flatten.length ids r).1 = true ↔
      ∃ lo hi : Int, ∀ x, (∃ s, x ∈ ids s) ↔ lo ≤ x ∧ x ≤ hi) ∧
    (∀ s, isContiguousId (List.ofFn ids).flatten.length ids s
      = isContiguousId (List.ofFn ids).flatten.length ids r) ∧
    (∃ s, (isContiguousId (List.ofFn ids).flatten.length ids r).2 ∈ ids s) ∧
    (∀ s, ∀ x ∈ ids s, (isContiguousId (List.ofFn ids).flatten.length ids r).2 ≤ x) := by
  have hmem : ∀ x, x ∈ (List.ofFn ids).flatten ↔ ∃ r, x ∈ ids r := by
    intro x
    rw [List.mem_flatten]
    constructor
    · rintro ⟨l, hl, hx⟩
      obtain ⟨r, rfl⟩ := List.mem_ofFn.mp hl
      exact ⟨r, hx⟩
    · rintro ⟨r, hx⟩; exact ⟨ids r, List.mem_ofFn.mpr ⟨r, rfl⟩, hx⟩
  obtain ⟨m, M, hm, hM, hmM, e⟩ := isContiguousId_ok (List.ofFn ids).flatten.length ids hs (by
    obtain ⟨r, hr⟩ := hne
    obtain ⟨x, hx⟩ := List.exists_mem_of_ne_nil _ hr
    exact List.ne_nil_of_mem ((hmem x).mpr ⟨r, hx⟩))
  simp only [e]
  refine ⟨?_, fun _ => trivial, (hmem m).mp hm, fun s x hx => (hmM x ((hmem x).mpr ⟨s, hx⟩)).1⟩
  rw [decide_eq_true_iff]
  set G := (List.ofFn ids).flatten with hG
  constructor
  · intro h
    refine ⟨m, M, fun x => ⟨fun hx => hmM x ((hmem x).mpr hx), ?_⟩⟩
    rintro ⟨h1, h2⟩
    rw [← hmem]
    by_contra hx
    -- a missing id leaves too little room
    have hb := below_contig G hd m (fun y hy => by have := hmM y hy; omega) (x - m).toNat (by omega)
    have hb2 := below_contig G hd m (fun y hy => by have := hmM y hy; omega) ((x - m).toNat + 1) (by omega)
    have : below G (m + ((x - m).toNat : Int)) = below G (m + (((x - m).toNat + 1 : Nat) : Int)) := by
      unfold below
      apply List.countP_congr
      intro y hy
      have : y ≠ x := by rintro rfl; exact hx hy
      simp; omega
    omega
  · rintro ⟨lo, hi, h⟩
    have hlo : m = lo := by
      have h1 := (h m).mp ((hmem m).mp hm)
      have h2 := (hmM lo ((hmem lo).mpr ((h lo).mpr ⟨le_refl _, by omega⟩))).1
      omega
    have hhi : M = hi := by
      have h1 := (h M).mp ((hmem M).mp hM)
      have h2 := (hmM hi ((hmem hi).mpr ((h hi).mpr ⟨by omega, le_refl _⟩))).2
      omega
    subst hlo hhi
    have hset : G.toFinset = Finset.Icc m M := by
      ext x
      rw [List.mem_toFinset, Finset.mem_Icc, hmem, h]
    have := congrArg Finset.card hset
    rw [List.toFinset_card_of_nodup hd, Int.card_Icc] at this
    have := (hmM m hm).2
    omega

example : (isContiguousId 5 (fun r : Fin 3 => if r = 0 then [] else if r = 1 then [3, 5, 6] else [2, 4]) 0)
    = (true, 2) := by decide

example : (isContiguousId 4 (fun r : Fin 3 => if r = 0 then [] else if r = 1 then [3, 5, 6] else [2]) 0)
    = (false, 2) := by decide

/-! ## C15 -/


/-- The redistribution up to the point where each rank reads its first and last id, line 182. -/
theorem exchange_received {P : Nat} (hP : 0 < P) {sort : List (Particle D) → List (Particle D)}
    (hsort : SortBySpec Particle.id sort) (parts : Fin P → List (Particle D))
    (hd : ((allParticles parts).map Particle.id).Nodup) (hne : allParticles parts ≠ []) :
    ∃ (received : Fin P → List (Particle D)) (c : Nat → Int), (∀ j, c j ≤ c (j+1)) ∧
      (allParticles received).Perm (allParticles parts) ∧
      (∀ r : Fin P, ∀ q ∈ received r, c r ≤ q.id ∧ q.id < c (r+1)) ∧
      (∀ r : Fin P, (received r).length = share (allParticles parts).length P r) ∧
      exchangeParticles sort parts = (do
        let minMax ← allRanks P (fun r => frontBack (sort (received r)))
        let ranges ← idRanges minMax
        .ok (fun r => sort (received r), ranges)) := by
  set N := (allParticles parts).length with hNdef
  set sp : Fin P → List (Particle D) := fun r => sort (parts r) with hsp
  set ids : Fin P → List Int := fun r => (sp r).map Particle.id with hids
  have hsperm : (allParticles sp).Perm (allParticles parts) := flatten_perm _ _ (fun r => hsort.perm _)
  have hidsflat : (List.ofFn ids).flatten = (allParticles sp).map Particle.id := by
    unfold allParticles
    rw [List.map_flatten, List.map_ofFn]; rfl
  have hnod : (List.ofFn ids).flatten.Nodup := by
    rw [hidsflat]; exact (hsperm.map _).nodup_iff.mpr hd
  have hle : ∀ r, (ids r).Pairwise (· ≤ ·) := by
    intro r
    simp only [hids, hsp]
    rw [List.pairwise_map]
    exact hsort.sorted _
  have hlt : ∀ r, (ids r).Pairwise (· < ·) := by
    intro r
    have h1 : (ids r).Nodup := (List.nodup_flatten.mp hnod).1 _ (List.mem_ofFn.mpr ⟨r, rfl⟩)
    exact ((hle r).and h1).imp (fun h => lt_of_le_of_ne h.1 h.2)
  have hlen : ∀ r, (ids r).length = (parts r).length := by
    intro r; simp only [hids, hsp, List.length_map]; exact (hsort.perm _).length_eq
  have hsum : (List.ofFn (fun r => (parts r).length)).sum = N := by
    rw [hNdef]; unfold allParticles
    rw [List.length_flatten, List.map_ofFn]; rfl
  have hN : ∑ r, (ids r).length = N := by
    rw [← hsum, List.sum_ofFn]; exact Finset.sum_congr rfl (fun r _ => hlen r)
  have hN0 : 0 < N := List.length_pos_iff.mpr hne
  obtain ⟨c, hcm, hct, hce⟩ := partitionParticles_ok hP N ids hlt hnod hN hN0
  have hcP : ∀ r, below (ids r) (c P) = (sp r).length := by
    have h1 := hct P (Nat.le_refl _)
    rw [tgt_last N P hP, ← hN] at h1
    intro r
    rw [(Finset.sum_eq_sum_iff_of_le (fun r _ => below_le (ids r) (c P))).mp h1 r (Finset.mem_univ r)]
    simp [hids]
  have hc0 : ∀ r, below (ids r) (c 0) = 0 := by
    have h1 := hct 0 (Nat.zero_le _)
    rw [show tgt N P 0 = 0 by simp [tgt], Finset.sum_eq_zero_iff] at h1
    exact fun r => h1 r (Finset.mem_univ r)
  let f : Fin P → Nat → Nat := fun r j => below (ids r) (c j)
  have hfm : ∀ r j, f r j ≤ f r (j+1) := fun r j => below_mono _ (hcm j)
  let received : Fin P → List (Particle D) := fun r => (List.ofFn (fun s => seg (sp s) (f s) r)).flatten
  have hfle : ∀ s j, f s j ≤ (sp s).length := by
    intro s j; have := below_le (ids s) (c j); simpa [hids] using this
  refine ⟨received, c, hcm, ?_, ?_, ?_, ?_⟩
  · refine List.Perm.trans ?_ hsperm
    show (List.ofFn (fun r : Fin P => (List.ofFn (fun s => seg (sp s) (f s) r)).flatten)).flatten.Perm _
    refine (flatten_swap (fun r s : Fin P => seg (sp s) (f s) r)).trans ?_
    unfold allParticles
    apply flatten_perm
    intro s
    rw [ofFn_eq_map_range' (fun j => seg (sp s) (f s) j), seg_flatten _ _ (hfm s)]
    rw [show f s 0 = 0 from hc0 s, Nat.zero_add, show f s P = (sp s).length from hcP s]
    simp
  · intro r q hq
    obtain ⟨l, hl, hq⟩ := List.mem_flatten.mp hq
    obtain ⟨s, rfl⟩ := List.mem_ofFn.mp hl
    unfold seg at hq
    constructor
    · apply (below_take (ids s) (c r) (hle s)).2
      simp only [hids]
      rw [← List.map_drop]
      exact List.mem_map_of_mem (List.mem_of_mem_take hq)
    · apply (below_take (ids s) (c (r+1)) (hle s)).1
      simp only [hids]
      rw [← List.map_take]
      rw [← List.drop_take] at hq
      exact List.mem_map_of_mem (List.mem_of_mem_drop hq)
  · intro r
    show (List.ofFn (fun s => seg (sp s) (f s) r)).flatten.length = _
    rw [List.length_flatten, List.map_ofFn, List.sum_ofFn]
    have h1 := hct r.val (by omega)
    have h2 := hct (r.val+1) (by omega)
    have h3 : ∑ s, (List.length ∘ fun s => seg (sp s) (f s) r) s + ∑ s, f s r = ∑ s, f s (r+1) := by
      rw [← Finset.sum_add_distrib]
      refine Finset.sum_congr rfl (fun s _ => ?_)
      simp only [Function.comp]
      rw [seg_length _ _ _ (hfle s _)]
      have := hfm s r.val
      omega
    have h4 := tgt_succ N P r.val
    have h5 : ∑ s, f s r = tgt N P r := h1
    have h6 : ∑ s, f s (r+1) = tgt N P (r+1) := h2
    omega
  · unfold exchangeParticles
    simp only [hsum]
    have hce' : partitionParticles N (fun r => (sort (parts r)).map Particle.id)
        = .ok (fun r => (List.range' 0 P).map (f r)) := hce
    rw [hce', Outcome.bind_ok]
    rw [allRanks_ok _ (fun r => (List.range' 0 P).map (fun j => f r (j+1) - f r j)) (by
      intro r
      have := sendSizes_ok (f r) (hfm r) P 0
      rw [Nat.zero_add, show f r P = (sort (parts r)).length from hcP r] at this
      exact this), Outcome.bind_ok]
    rw [allRanks_ok _ received (by
      intro r
      unfold receiveBlocks
      rw [allRanks_ok _ (fun s => seg (sp s) (f s) r) (by
        intro s
        rw [Outcome.get_of_lt (by simp), Outcome.bind_ok, Outcome.get_of_lt (by simp), Outcome.bind_ok]
        simp only [List.getElem_map, List.getElem_range', Nat.zero_add, Nat.one_mul]
        unfold slice
        rw [if_pos (by
          have h1 := hfle s (r.val+1); have h2 := hfm s r.val
          simp only [hsp] at h1
          omega)]
        rfl)]
      rfl), Outcome.bind_ok]

/-- C15. For every number of processes, every distribution over them of particles with distinct
non-negative ids, at least as many particles as processes: the redistribution terminates without
error; the particles afterwards are a rearrangement of those before; a process's particles are in
strictly ascending id order; the advertised ranges are ordered, and process `r` holds exactly the
particles with ids in its range; every particle is in one of them; and the numbers of particles per
process differ by at most one. -/
theorem C15_partition {P : Nat} (hP : 0 < P) {sort : List (Particle D) → List (Particle D)}
    (hsort : SortBySpec Particle.id sort) (parts : Fin P → List (Particle D))
    (hd : ((allParticles parts).map Particle.id).Nodup) (hnn : ∀ q ∈ allParticles parts, 0 ≤ q.id)
    (henough : P ≤ (allParticles parts).length) :
    ∃ new ranges, exchangeParticles sort parts = .ok (new, ranges) ∧
      (allParticles new).Perm (allParticles parts) ∧
      (∀ r, ((new r).map Particle.id).Pairwise (· < ·)) ∧
      PartitionedById ranges new ∧
      (∀ r : Fin P, ∀ q ∈ allParticles parts, q ∈ new r ↔
        ∃ lo hi, ranges[r.val]? = some lo ∧ ranges[r.val+1]? = some hi ∧ lo ≤ q.id ∧ q.id < hi) ∧
      (∀ q ∈ allParticles parts, ∃ r, q ∈ new r) ∧
      (∀ r : Fin P, (new r).length = (allParticles parts).length / P
        + if r.val < (allParticles parts).length % P then 1 else 0) := by
  obtain ⟨received, c, hcm, hperm, hrange, hshare, he⟩ := exchange_received hP hsort parts hd
    (by intro h; rw [h] at henough; simp at henough; omega)
  set new : Fin P → List (Particle D) := fun r => sort (received r) with hnew
  have hpermN : (allParticles new).Perm (allParticles parts) :=
    (flatten_perm _ _ (fun r => hsort.perm _)).trans hperm
  have hmemN : ∀ r q, q ∈ new r ↔ q ∈ received r := fun r q => (hsort.perm _).mem_iff
  have hlenN : ∀ r : Fin P, (new r).length = share (allParticles parts).length P r := by
    intro r; rw [← hshare r]; exact (hsort.perm _).length_eq
  have hq1 : 1 ≤ (allParticles parts).length / P := (Nat.one_le_div_iff hP).mpr henough
  have hpos : ∀ r, new r ≠ [] := by
    intro r h
    have := hlenN r
    rw [h] at this
    unfold share at this
    simp at this
    omega
  have hsortN : ∀ r, ((new r).map Particle.id).Pairwise (· ≤ ·) := by
    intro r
    rw [List.pairwise_map]; exact hsort.sorted _
  have hnodN : ((allParticles new).map Particle.id).Nodup := (hpermN.map _).nodup_iff.mpr hd
  have hflatN : (allParticles new).map Particle.id = (List.ofFn (fun r => (new r).map Particle.id)).flatten := by
    unfold allParticles; rw [List.map_flatten, List.map_ofFn]; rfl
  have hdistinct : ∀ r, ((new r).map Particle.id).Nodup := by
    intro r
    rw [hflatN] at hnodN
    exact (List.nodup_flatten.mp hnodN).1 _ (List.mem_ofFn.mpr ⟨r, rfl⟩)
  -- first and last ids
  have hfb : ∀ r, ∃ ab : Int × Int, frontBack (new r) = .ok ab ∧
      (∃ q ∈ new r, q.id = ab.1) ∧ ∀ q ∈ new r, ab.1 ≤ q.id ∧ q.id ≤ ab.2 := by
    intro r
    have h1 := hsortN r
    have h2 := hpos r
    cases e : new r with
    | nil => exact absurd e h2
    | cons a l =>
      refine ⟨_, rfl, ⟨a, by simp, rfl⟩, ?_⟩
      rw [e] at h1
      intro q hq
      obtain ⟨i, hi, rfl⟩ := List.mem_iff_getElem.mp hq
      constructor
      · have := get_mono h1 (Nat.zero_le i) (by simpa using hi)
        simp only [List.getElem_map] at this
        exact this
      · rw [List.getLast_eq_getElem]
        have := get_mono h1 (show i ≤ (a :: l).length - 1 by omega) (by simp)
        simp only [List.getElem_map] at this
        exact this
  choose ab hab hfront hback using hfb
  rw [allRanks_ok _ ab hab, Outcome.bind_ok] at he
  obtain ⟨Q, rfl⟩ : ∃ Q, P = Q + 1 := ⟨P - 1, by omega⟩
  have hlast : (List.ofFn ab).getLast? = some (ab (Fin.last Q)) := by
    rw [List.getLast?_eq_getElem?, List.getElem?_eq_getElem (by simp)]
    simp only [List.getElem_ofFn, List.length_ofFn]
    rfl
  unfold idRanges at he
  rw [hlast] at he
  simp only [Outcome.bind_ok] at he
  set ranges := List.ofFn (fun r => (ab r).1) ++ [(ab (Fin.last Q)).2 + 1] with hranges
  have hlo : ∀ r : Fin (Q+1), ranges[r.val]? = some (ab r).1 := by
    intro r
    rw [hranges, List.getElem?_append_left (by simp), List.getElem?_eq_getElem (by simp)]
    simp only [List.getElem_ofFn]
  have hend : ranges[Q+1]? = some ((ab (Fin.last Q)).2 + 1) := by
    rw [hranges, List.getElem?_append_right (by simp)]
    simp
  have hrangeN : ∀ r : Fin (Q+1), ∀ q ∈ new r, c r ≤ q.id ∧ q.id < c (r+1) :=
    fun r q hq => hrange r q ((hmemN r q).mp hq)
  have hlt : ∀ r : Fin (Q+1), ∀ q ∈ new r, ∀ hi, ranges[r.val+1]? = some hi → q.id < hi := by
    intro r q hq hi hhi
    by_cases hr : r.val + 1 < Q + 1
    · have h1 := hlo ⟨r.val+1, hr⟩
      rw [h1] at hhi
      obtain ⟨q', hq', e'⟩ := hfront ⟨r.val+1, hr⟩
      have h2 := hrangeN _ q' hq'
      have h3 := hrangeN _ q hq
      cases hhi
      simp only at h2
      omega
    · have hr' : r = Fin.last Q := Fin.ext (by simp [Fin.last]; omega)
      subst hr'
      rw [show (Fin.last Q).val + 1 = Q + 1 from rfl, hend] at hhi
      have := (hback (Fin.last Q) q hq).2
      cases hhi
      omega
  have hmono : ∀ i j : Nat, i ≤ j → c i ≤ c j := by
    intro i j h
    induction j, h using Nat.le_induction with
    | base => exact le_refl _
    | succ j _ ih => exact le_trans ih (hcm j)
  -- disjointness of the ranges
  have huniq : ∀ r s : Fin (Q+1), ∀ q ∈ new s, ∀ lo hi, ranges[r.val]? = some lo →
      ranges[r.val+1]? = some hi → lo ≤ q.id → q.id < hi → r = s := by
    intro r s q hq lo hi h1 h2 h3 h4
    rw [hlo r] at h1
    cases h1
    by_contra hne
    rcases lt_or_gt_of_ne hne with h | h
    · -- s above r
      have hs1 : r.val + 1 < Q + 1 := by have := s.isLt; have : r.val < s.val := h; omega
      rw [hlo ⟨r.val+1, hs1⟩] at h2
      cases h2
      obtain ⟨q', hq', e'⟩ := hfront ⟨r.val+1, hs1⟩
      by_cases e : s.val = r.val + 1
      · have es : s = ⟨r.val+1, hs1⟩ := Fin.ext e
        subst es
        have := (hback _ q hq).1
        omega
      · have h5 := hrangeN _ q' hq'
        have h6 := hrangeN _ q hq
        have : r.val < s.val := h
        have h7 := hmono (r.val+1+1) s.val (by omega)
        simp only at h5
        omega
    · obtain ⟨q', hq', e'⟩ := hfront r
      have h5 := hrangeN _ q' hq'
      have h6 := hrangeN _ q hq
      have : s.val < r.val := h
      have h7 := hmono (s.val+1) r.val (by omega)
      omega
  have hall : ∀ q ∈ allParticles parts, ∃ r, q ∈ new r := by
    intro q hq
    exact (mem_allParticles new q).mp (hpermN.mem_iff.mpr hq)
  refine ⟨new, ranges, he, hpermN, ?_, ⟨by simp [hranges], ?_, ?_, hdistinct, ?_⟩, ?_, hall, ?_⟩
  · intro r
    exact ((hsortN r).and (hdistinct r)).imp (fun h => lt_of_le_of_ne h.1 h.2)
  · rw [List.pairwise_iff_getElem]
    intro i j hi hj hij
    have hl : ranges.length = Q + 2 := by simp [hranges]
    have e1 := hlo ⟨i, by omega⟩
    rw [List.getElem?_eq_getElem hi] at e1
    obtain ⟨q, hq, hqe⟩ := hfront ⟨i, by omega⟩
    have g1 := hrangeN _ q hq
    simp only [Option.some.injEq] at e1
    rw [e1]
    by_cases hjl : j < Q + 1
    · have e2 := hlo ⟨j, hjl⟩
      rw [List.getElem?_eq_getElem hj] at e2
      simp only [Option.some.injEq] at e2
      obtain ⟨q', hq', hqe'⟩ := hfront ⟨j, hjl⟩
      have g2 := hrangeN _ q' hq'
      have g3 := hmono (i+1) j (by omega)
      simp only at g1 g2
      omega
    · have : j = Q + 1 := by omega
      subst this
      rw [List.getElem?_eq_getElem hj] at hend
      simp only [Option.some.injEq] at hend
      rw [hend]
      obtain ⟨q', hq', hqe'⟩ := hfront (Fin.last Q)
      have g2 := hrangeN _ q' hq'
      have g4 := (hback (Fin.last Q) q' hq').2
      by_cases hiq : i = Q
      · subst hiq
        have h7 : q.id ≤ (ab (Fin.last i)).2 := (hback (Fin.last i) q hq).2
        omega
      · have g3 := hmono (i+1) Q (by omega)
        simp only [Fin.val_last] at g1 g2
        omega
  · intro r q hq lo hi h1 h2
    refine ⟨?_, hlt r q hq hi h2⟩
    rw [hlo r] at h1; cases h1
    exact (hback r q hq).1
  · intro r q hq
    exact hnn q (hpermN.mem_iff.mp ((mem_allParticles new q).mpr ⟨r, hq⟩))
  · intro r q hq
    constructor
    · intro h
      have h2 : r.val + 1 < ranges.length := by simp [hranges]
      exact ⟨(ab r).1, ranges[r.val+1], hlo r, List.getElem?_eq_getElem h2, (hback r q h).1,
        hlt r q h _ (List.getElem?_eq_getElem h2)⟩
    · rintro ⟨lo, hi, h1, h2, h3, h4⟩
      obtain ⟨s, hs⟩ := hall q hq
      have := huniq r s q hs lo hi h1 h2 h3 h4
      rw [this]; exact hs
  · intro r; rw [hlenN r]; rfl

/-- C15, the excluded case: with fewer particles than processes (but at least one) the code reads the
first element of an empty vector. -/
theorem C15_too_few_particles {P : Nat} {sort : List (Particle D) → List (Particle D)}
    (hsort : SortBySpec Particle.id sort) (parts : Fin P → List (Particle D))
    (hd : ((allParticles parts).map Particle.id).Nodup) (hne : allParticles parts ≠ [])
    (hfew : (allParticles parts).length < P) :
    exchangeParticles sort parts = .ub := by
  obtain ⟨received, c, hcm, hperm, hrange, hshare, he⟩ := exchange_received (by omega) hsort parts hd hne
  rw [he]
  have hub : ∀ {Q : Nat} (f : Fin Q → Outcome (Int × Int)), (∀ i, (∃ v, f i = .ok v) ∨ f i = .ub) →
      (∃ i, f i = .ub) → allRanks Q f = .ub := by
    intro Q
    induction Q with
    | zero => intro f _ ⟨i, _⟩; exact i.elim0
    | succ Q ih =>
      intro f hall ⟨i, hi⟩
      rw [allRanks]
      rcases hall 0 with ⟨v, h0⟩ | h0
      · rw [h0, Outcome.bind_ok]
        have : ∃ j : Fin Q, f j.succ = .ub := by
          cases i using Fin.cases with
          | zero => rw [h0] at hi; cases hi
          | succ j => exact ⟨j, hi⟩
        rw [ih _ (fun j => hall j.succ) this]; rfl
      · rw [h0]; rfl
  rw [hub]
  · rfl
  · intro r
    cases h : sort (received r) with
    | nil => exact Or.inr rfl
    | cons a l => exact Or.inl ⟨_, rfl⟩
  · refine ⟨⟨P - 1, by omega⟩, ?_⟩
    have h1 := hshare ⟨P - 1, by omega⟩
    have h2 : (received ⟨P - 1, by omega⟩).length = 0 := by
      rw [h1]
      unfold share
      rw [Nat.div_eq_of_lt hfew, Nat.mod_eq_of_lt hfew]
      simp only
      rw [if_neg (by omega)]
    have h3 : sort (received ⟨P - 1, by omega⟩) = [] := by
      rw [← List.length_eq_zero_iff, (hsort.perm _).length_eq, h2]
    rw [h3]; rfl

/-- C15 and C17 fit together: the ranges advertised by the redistribution are what the query needs. -/
theorem C15_feeds_query {P : Nat} (hP : 0 < P) {sort : List (Particle D) → List (Particle D)}
    (hsort : SortBySpec Particle.id sort) (parts : Fin P → List (Particle D))
    (hd : ((allParticles parts).map Particle.id).Nodup) (hnn : ∀ q ∈ allParticles parts, 0 ≤ q.id)
    (henough : P ≤ (allParticles parts).length) (new : Fin P → List (Particle D)) (ranges : List Int)
    (h : exchangeParticles sort parts = .ok (new, ranges)) : PartitionedById ranges new := by
  obtain ⟨new', ranges', e, _, _, hp, _⟩ := C15_partition hP hsort parts hd hnn henough
  rw [e] at h; cases h; exact hp

/-! Concrete runs: contiguous ids and ids with a gap, over two ranks. -/

def exampleSortQ (l : List (Particle Nat)) : List (Particle Nat) := l.mergeSort (fun a b => a.id ≤ b.id)

theorem exampleSortQ_spec : SortBySpec (Particle.id : Particle Nat → Int) exampleSortQ where
  perm l := List.mergeSort_perm l _
  sorted l := by
    have := List.pairwise_mergeSort (le := fun a b : Particle Nat => decide (a.id ≤ b.id))
      (by intro a b c; simp; intro h1 h2; omega) (by intro a b; simp; omega) l
    simpa [exampleSortQ] using this

example : ∃ new ranges, exchangeParticles exampleSortQ
    (fun r : Fin 2 => if r = 0 then [⟨9, 0⟩, ⟨3, 1⟩, ⟨5, 2⟩, ⟨4, 3⟩] else [⟨11, 4⟩]) = .ok (new, ranges) ∧
    PartitionedById ranges new := by
  obtain ⟨new, ranges, h, _, _, hp, _⟩ := C15_partition (by decide) exampleSortQ_spec
    (fun r : Fin 2 => if r = 0 then [⟨9, 0⟩, ⟨3, 1⟩, ⟨5, 2⟩, ⟨4, 3⟩] else [⟨11, 4⟩])
    (by decide) (by decide) (by decide)
  exact ⟨new, ranges, h, hp⟩

end HBT.Props
