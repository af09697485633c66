import Verif.Model.Branch
import Verif.Spec.Branch
import Verif.Lemmas.Mpi
import Verif.Lemmas.Config
import Mathlib.Data.List.Dedup
import Mathlib.Algebra.BigOperators.Group.List.Basic
import Mathlib.Data.List.Perm.Lattice
import Mathlib.Algebra.Order.BigOperators.Group.List
/-!
# Lemmas about the infall-branch counter
-/
namespace HBT
open HBT.Model HBT.Spec

/-- The slaves' tables together place every particle: a hosted particle is known to exactly one
slave, which has its halo, and branch numbers are not negative. -/
structure Hosted {P : Nat} (snap : Fin P → SlaveSnap) (host : Int → Option Int) : Prop where
  owner : ∀ pid b, host pid = some b → ∃ i n, ∃ h : n < (snap i).haloIds.length,
    (snap i).getIndex pid = (n : Int) ∧ (snap i).haloIds[n] + (snap i).snapId * branchBase = b ∧
    ∀ j, j ≠ i → (snap j).getIndex pid = -1
  none : ∀ pid, host pid = none → ∀ i, (snap i).getIndex pid = -1
  nonneg : ∀ pid b, host pid = some b → 0 ≤ b

/-- The branch number stored for a host. -/
def branchCode : Option Int → Int
  | some b => b
  | none => -1

/-- What one slave sees of the hosts. -/
def seenBy {P : Nat} (snap : Fin P → SlaveSnap) (host : Int → Option Int) (i : Fin P) (pid : Int) :
    Option Int := if (snap i).getIndex pid = -1 then none else host pid

theorem findOne_eq {P : Nat} {snap : Fin P → SlaveSnap} {host : Int → Option Int}
    (h : Hosted snap host) (i : Fin P) (j : Nat) (p : BranchPart) :
    findOne (snap i) j p
      = .ok { p with branch := branchCode (seenBy snap host i p.pid), index := j } := by
  unfold findOne seenBy
  by_cases hb : (snap i).getIndex p.pid = -1
  · simp [hb, branchCode]
  · simp only [hb, ne_eq, not_false_eq_true, if_true, if_false]
    cases hh : host p.pid with
    | none => exact absurd (h.none _ hh i) hb
    | some b =>
      obtain ⟨i', n, hn, h1, h2, h3⟩ := h.owner _ _ hh
      have hi : i = i' := by
        by_contra hc
        exact hb (h3 i hc)
      subst hi
      rw [h1, Outcome.getI, if_neg (by omega)]
      simp only [Int.toNat_natCast]
      rw [Outcome.get_of_lt hn, Outcome.bind_ok, h2]
      rfl

/-- A particle as a slave leaves it. -/
def asFound {P : Nat} (snap : Fin P → SlaveSnap) (host : Int → Option Int) (i : Fin P)
    (x : BranchPart × Nat) : BranchPart :=
  { x.1 with branch := branchCode (seenBy snap host i x.1.pid), index := x.2 }

theorem findFrom_eq {P : Nat} {snap : Fin P → SlaveSnap} {host : Int → Option Int}
    (h : Hosted snap host) (i : Fin P) (R : List BranchPart) (k : Nat) :
    findFrom (snap i) k R = .ok ((R.zipIdx k).map (asFound snap host i)) := by
  induction R generalizing k with
  | nil => rfl
  | cons p R ih =>
    rw [findFrom, findOne_eq h, Outcome.bind_ok, ih, Outcome.bind_ok, List.zipIdx_cons, List.map_cons]
    rfl

theorem dropWhile_sorted (l : List BranchPart) (hs : l.Pairwise (fun a b => a.branch ≤ b.branch))
    (hge : ∀ p ∈ l, -1 ≤ p.branch) :
    l.dropWhile (fun p => p.branch == -1) = l.filter (fun p => p.branch != -1) := by
  induction l with
  | nil => rfl
  | cons p l ih =>
    obtain ⟨h1, h2⟩ := List.pairwise_cons.mp hs
    by_cases hp : p.branch = -1
    · rw [List.dropWhile_cons_of_pos (by simpa using hp), List.filter_cons_of_neg (by simpa using hp)]
      exact ih h2 (fun q hq => hge q (List.mem_cons_of_mem _ hq))
    · rw [List.dropWhile_cons_of_neg (by simpa using hp), List.filter_cons_of_pos (by simpa using hp)]
      congr 1
      symm
      rw [List.filter_eq_self]
      intro q hq
      have := h1 q hq
      have := hge p List.mem_cons_self
      simp only [bne_iff_ne, ne_eq]
      omega

theorem trimEnd_sorted (l : List BranchPart) (hs : l.Pairwise (fun a b => b.branch ≤ a.branch))
    (hge : ∀ p ∈ l, -1 ≤ p.branch) : trimEnd l = l.filter (fun p => p.branch != -1) := by
  unfold trimEnd
  rw [dropWhile_sorted _ (List.pairwise_reverse.mpr hs) (fun p hp => hge p (List.mem_reverse.mp hp)),
    List.filter_reverse, List.reverse_reverse]

theorem perm_partition {ι α β : Type} (L : List ι) (g : ι → α → Option β) (G : α → Option β)
    (h : ∀ a, L.flatMap (fun i => (g i a).toList) = (G a).toList) (l : List α) :
    (L.flatMap (fun i => l.filterMap (g i))).Perm (l.filterMap G) := by
  induction l with
  | nil => simp
  | cons a l ih =>
    have e1 : (fun i => (a :: l).filterMap (g i)) = fun i => (g i a).toList ++ l.filterMap (g i) := by
      funext i
      rw [List.filterMap_cons]
      cases g i a <;> simp
    have e2 : (a :: l).filterMap G = (G a).toList ++ l.filterMap G := by
      rw [List.filterMap_cons]
      cases G a <;> simp
    rw [e1, e2, ← h a]
    exact (List.flatMap_append_perm L _ _).symm.trans (ih.append_left _)

theorem flatMap_single {ι β : Type} [DecidableEq ι] (L : List ι) (hn : L.Nodup) (i₀ : ι) (h : i₀ ∈ L)
    (f : ι → List β) (hf : ∀ i, i ≠ i₀ → f i = []) : L.flatMap f = f i₀ := by
  induction L with
  | nil => simp at h
  | cons i L ih =>
    obtain ⟨h1, h2⟩ := List.nodup_cons.mp hn
    rw [List.flatMap_cons]
    by_cases hi : i = i₀
    · subst hi
      have : L.flatMap f = [] := by
        rw [List.flatMap_eq_nil_iff]
        intro j hj
        exact hf j (fun e => h1 (e ▸ hj))
      rw [this, List.append_nil]
    · rw [hf i hi, List.nil_append]
      exact ih h2 (by simpa [Ne.symm hi] using h)

/-- The messages of all slaves together. -/
theorem messages_perm {P : Nat} {snap : Fin P → SlaveSnap} {host : Int → Option Int}
    (h : Hosted snap host) (sort : Fin P → List BranchPart → List BranchPart)
    (hsort : ∀ i, BranchSort (sort i)) (order : List (Fin P)) (ho : order.Perm (List.finRange P))
    (R : List BranchPart) (k : Nat) :
    ((order.map (fun i => trimEnd (sort i ((R.zipIdx k).map (asFound snap host i))))).flatten).Perm
      ((R.zipIdx k).filterMap (fun x => (host x.1.pid).map (fun b =>
        { x.1 with branch := b, index := x.2 }))) := by
  have hge : ∀ i, ∀ p ∈ (R.zipIdx k).map (asFound snap host i), -1 ≤ p.branch := by
    intro i p hp
    obtain ⟨x, -, rfl⟩ := List.mem_map.mp hp
    simp only [asFound, branchCode, seenBy]
    split
    · rename_i b hb
      split at hb
      · exact absurd hb (by simp)
      · have := h.nonneg _ _ hb; omega
    · omega
  have hmsg : ∀ i, (trimEnd (sort i ((R.zipIdx k).map (asFound snap host i)))).Perm
      ((R.zipIdx k).filterMap (fun x => (seenBy snap host i x.1.pid).map (fun b =>
        { x.1 with branch := b, index := x.2 }))) := by
    intro i
    rw [trimEnd_sorted _ ((hsort i).sorted _)
      (fun p hp => hge i p (((hsort i).perm _).mem_iff.mp hp))]
    refine (((hsort i).perm _).filter _).trans ?_
    rw [List.filter_map, ← List.filterMap_eq_map, ← List.filterMap_eq_filter, List.filterMap_filterMap]
    apply List.Perm.of_eq
    apply List.filterMap_congr
    intro x _
    have hcode : seenBy snap host i x.1.pid = none ∨ ∃ b, 0 ≤ b ∧ seenBy snap host i x.1.pid = some b := by
      cases hs : seenBy snap host i x.1.pid with
      | none => exact Or.inl rfl
      | some b =>
        refine Or.inr ⟨b, ?_, rfl⟩
        unfold seenBy at hs
        split at hs
        · exact absurd hs (by simp)
        · exact h.nonneg _ _ hs
    simp only [Option.guard, Function.comp_apply]
    rcases hcode with hs | ⟨b, hb, hs⟩
    · have : (asFound snap host i x).branch = -1 := by simp [asFound, hs, branchCode]
      simp [this, hs]
    · have h2 : asFound snap host i x = { x.1 with branch := b, index := x.2 } := by
        simp [asFound, hs, branchCode]
      have h3 : b ≠ -1 := by omega
      simp [h3, h2, hs]
  have h1 : ((order.map (fun i => trimEnd (sort i ((R.zipIdx k).map (asFound snap host i))))).flatten).Perm
      (order.flatMap (fun i => (R.zipIdx k).filterMap (fun x => (seenBy snap host i x.1.pid).map (fun b =>
        { x.1 with branch := b, index := x.2 })))) := by
    rw [← List.flatMap_def]
    exact List.Perm.flatMap_left _ (fun i _ => hmsg i)
  refine h1.trans (perm_partition order _ _ ?_ _)
  intro x
  have hnd : order.Nodup := ho.nodup_iff.mpr (List.nodup_finRange P)
  cases hh : host x.1.pid with
  | none =>
    simp only [Option.map_none, Option.toList_none, List.flatMap_eq_nil_iff]
    intro i _
    simp [seenBy, hh]
  | some b =>
    obtain ⟨i, n, hn, h1, h2, h3⟩ := h.owner _ _ hh
    rw [flatMap_single order hnd i (ho.mem_iff.mpr (List.mem_finRange i))]
    · have : (snap i).getIndex x.1.pid ≠ -1 := by omega
      simp [seenBy, this, hh]
    · intro j hj
      simp [seenBy, h3 j hj]

/-- Storing branches that are a function of the index. -/
theorem storeBranches_eq (v : Nat → Int) (M : List BranchPart) : ∀ (parts : List BranchPart),
    (∀ h ∈ M, h.index < parts.length ∧ h.branch = v h.index) →
    ∃ out, storeBranches parts M = .ok out ∧ out.length = parts.length ∧
      ∀ j (hj : j < parts.length) (hj' : j < out.length),
        ((∃ h ∈ M, h.index = j) → out[j] = { parts[j] with branch := v j }) ∧
        ((∀ h ∈ M, h.index ≠ j) → out[j] = parts[j]) := by
  induction M with
  | nil =>
    intro parts _
    exact ⟨parts, rfl, rfl, fun j hj hj' => ⟨by rintro ⟨h, hh, -⟩; simp at hh, fun _ => rfl⟩⟩
  | cons m M ih =>
    intro parts hM
    obtain ⟨hm, hmv⟩ := hM m List.mem_cons_self
    have hset : Outcome.set parts m.index { parts[m.index] with branch := m.branch }
        = .ok (parts.set m.index { parts[m.index] with branch := m.branch }) := Outcome.set_of_lt hm
    obtain ⟨out, e, hl, hspec⟩ := ih (parts.set m.index { parts[m.index] with branch := m.branch })
      (fun h hh => by rw [List.length_set]; exact hM h (List.mem_cons_of_mem _ hh))
    refine ⟨out, ?_, by rw [hl, List.length_set], ?_⟩
    · rw [storeBranches, Outcome.get_of_lt hm, Outcome.bind_ok, hset, Outcome.bind_ok, e]
    · intro j hj hj'
      obtain ⟨s1, s2⟩ := hspec j (by rw [List.length_set]; exact hj) hj'
      constructor
      · rintro ⟨h, hh, rfl⟩
        by_cases hex : ∃ h' ∈ M, h'.index = h.index
        · rw [s1 hex]
          by_cases hmi : m.index = h.index
          · simp [hmi]
          · rw [List.getElem_set_ne hmi]
        · rcases List.mem_cons.mp hh with rfl | hh
          · rw [s2 (fun h' hh' he => hex ⟨h', hh', he⟩), List.getElem_set_self, hmv]
          · exact absurd ⟨h, hh, rfl⟩ hex
      · intro hno
        rw [s2 (fun h hh => hno h (List.mem_cons_of_mem _ hh)),
          List.getElem_set_ne (hno m List.mem_cons_self)]

/-- The search for the main branch over counted keys. -/
theorem searchMain_spec (narrow : Int → Int) (C : List (Int × Nat))
    (hC : ∀ x ∈ C, x.1 ≠ -1 ∧ narrow x.1 = x.1) : ∀ s : MainSearch,
    (C.foldl (searchMain narrow) s).newFound = s.newFound + (C.map (·.2)).sum ∧
    s.maxCount ≤ (C.foldl (searchMain narrow) s).maxCount ∧
    (∀ x ∈ C, x.2 ≤ (C.foldl (searchMain narrow) s).maxCount) ∧
    (((C.foldl (searchMain narrow) s).maxCount = s.maxCount ∧
        (C.foldl (searchMain narrow) s).maxId = s.maxId) ∨
      ((C.foldl (searchMain narrow) s).maxId, (C.foldl (searchMain narrow) s).maxCount) ∈ C) := by
  induction C with
  | nil => intro s; simp
  | cons x C ih =>
    intro s
    obtain ⟨hx, hn⟩ := hC x List.mem_cons_self
    obtain ⟨i1, i2, i3, i4⟩ := ih (fun y hy => hC y (List.mem_cons_of_mem _ hy)) (searchMain narrow s x)
    rw [List.foldl_cons]
    have hsf : (searchMain narrow s x).newFound = s.newFound + x.2 := by
      unfold searchMain
      rw [if_pos hx]
      split <;> rfl
    by_cases hgt : x.2 > s.maxCount
    · have hse : searchMain narrow s x = ⟨x.1, x.2, s.newFound + x.2⟩ := by
        unfold searchMain
        rw [if_pos hx, if_pos hgt, hn]
      rw [hse] at i1 i2 i3 i4 ⊢
      simp only at i1 i2 i4
      refine ⟨by rw [i1]; simp; omega, by omega, ?_, ?_⟩
      · intro y hy
        rcases List.mem_cons.mp hy with rfl | hy
        · exact i2
        · exact i3 y hy
      · right
        rcases i4 with ⟨j1, j2⟩ | j
        · rw [j1, j2]; exact List.mem_cons_self
        · exact List.mem_cons_of_mem _ j
    · have hse : searchMain narrow s x = { s with newFound := s.newFound + x.2 } := by
        unfold searchMain
        rw [if_pos hx, if_neg hgt]
      rw [hse] at i1 i2 i3 i4 ⊢
      simp only at i1 i2 i4
      refine ⟨by rw [i1]; simp; omega, i2, ?_, ?_⟩
      · intro y hy
        rcases List.mem_cons.mp hy with rfl | hy
        · omega
        · exact i3 y hy
      · rcases i4 with j | j
        · exact Or.inl j
        · exact Or.inr (List.mem_cons_of_mem _ j)

theorem iter_keys {iter : List Int → List (Int × Nat)} (h : MapIteration iter) (ids : List Int) :
    ((iter ids).map (·.1)).Perm ids.dedup := by
  rw [List.perm_ext_iff_of_nodup (h.nodup ids) (List.nodup_dedup ids)]
  intro b
  rw [List.mem_dedup, List.mem_map]
  constructor
  · rintro ⟨x, hx, rfl⟩
    exact ((h.mem ids x).mp hx).1
  · intro hb
    exact ⟨(b, ids.count b), (h.mem ids _).mpr ⟨hb, rfl⟩, rfl⟩

theorem iter_eq {iter : List Int → List (Int × Nat)} (h : MapIteration iter) (ids : List Int) :
    (iter ids).map (·.2) = ((iter ids).map (·.1)).map (fun b => ids.count b) := by
  rw [List.map_map]
  apply List.map_congr_left
  intro x hx
  exact ((h.mem ids x).mp hx).2

theorem iter_total {iter : List Int → List (Int × Nat)} (h : MapIteration iter) (ids : List Int) :
    ((iter ids).map (·.2)).sum = ids.length := by
  rw [iter_eq h, ((iter_keys h ids).map _).sum_eq]
  exact List.sum_map_count_dedup_eq_length ids

theorem branch_split (l : List BranchPart) (hs : l.Pairwise (fun a b => b.branch ≤ a.branch))
    (hge : ∀ p ∈ l, -1 ≤ p.branch) (n : Nat) (hn : n = l.countP (fun p => p.branch != -1)) :
    (∀ p ∈ l.take n, p.branch ≠ -1) ∧ ∀ p ∈ l.drop n, p.branch = -1 := by
  subst hn
  induction l with
  | nil => simp
  | cons p l ih =>
    obtain ⟨h1, h2⟩ := List.pairwise_cons.mp hs
    by_cases hp : p.branch = -1
    · have hall : ∀ q ∈ l, q.branch = -1 := by
        intro q hq
        have := h1 q hq
        have := hge q (List.mem_cons_of_mem _ hq)
        omega
      have h0 : (p :: l).countP (fun p => p.branch != -1) = 0 := by
        rw [List.countP_eq_zero]
        intro q hq
        rcases List.mem_cons.mp hq with rfl | hq
        · simpa using hp
        · simpa using hall q hq
      rw [h0]
      refine ⟨by simp, ?_⟩
      intro q hq
      rcases List.mem_cons.mp hq with rfl | hq
      · exact hp
      · exact hall q hq
    · rw [List.countP_cons_of_pos (by simpa using hp), List.take_succ_cons, List.drop_succ_cons]
      obtain ⟨a, b⟩ := ih h2 (fun q hq => hge q (List.mem_cons_of_mem _ hq))
      refine ⟨?_, b⟩
      intro q hq
      rcases List.mem_cons.mp hq with rfl | hq
      · exact hp
      · exact a q hq

end HBT
