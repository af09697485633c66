import Verif.Lemmas.Partition
import Verif.Model.HaloExchange
/-!
# Lemmas about moving haloes between ranks
-/
namespace HBT
open HBT.Model HBT.Spec
variable {S α β : Type}

theorem decideTargets_ok {P : Nat} (average : HaloRec S α → HaloRec S α) (cell : HaloRec S α → Outcome Int)
    (t : HaloRec S α → Fin P) : ∀ (hs : List (HaloRec S α)) (i : Nat),
    (∀ h ∈ hs, cell (average h) = .ok ((t (average h)).val : Int)) →
    decideTargets average cell hs i = .ok (hs.map average,
      ((hs.map average).zipIdx i).map (fun p => (((t p.1).val : Int), p.2)))
  | [], i, _ => rfl
  | h :: hs, i, H => by
    rw [decideTargets]
    simp only
    rw [H h (by simp), Outcome.bind_ok, decideTargets_ok average cell t hs (i+1) (fun h' hh => H h' (by simp [hh])),
      Outcome.bind_ok]
    simp

theorem reorder_ok (t : HaloRec S α → Int) (H : List (HaloRec S α)) : ∀ (ts : List (Int × Nat)),
    (∀ x ∈ ts, ∃ h, H[x.2]? = some h ∧ t h = x.1) →
    reorder H ts = .ok (ts.filterMap (fun x => H[x.2]?)) ∧
    (ts.filterMap (fun x => H[x.2]?)).map t = ts.map Prod.fst
  | [], _ => ⟨rfl, rfl⟩
  | x :: ts, hx => by
    obtain ⟨h, h1, h2⟩ := hx x (by simp)
    obtain ⟨e1, e2⟩ := reorder_ok t H ts (fun y hy => hx y (by simp [hy]))
    rw [reorder]
    unfold Outcome.get
    rw [h1]
    simp only [Outcome.bind_ok]
    rw [e1, Outcome.bind_ok, List.filterMap_cons, h1]
    simp [e2, h2]

theorem reorder_perm (t : HaloRec S α → Int) (H : List (HaloRec S α)) (ts : List (Int × Nat))
    (hp : ts.Perm (H.zipIdx.map (fun p => (t p.1, p.2)))) :
    ∃ L, reorder H ts = .ok L ∧ L.Perm H ∧ L.map t = ts.map Prod.fst := by
  have hx : ∀ x ∈ ts, ∃ h, H[x.2]? = some h ∧ t h = x.1 := by
    intro x hx
    obtain ⟨p, hp', rfl⟩ := List.mem_map.mp (hp.mem_iff.mp hx)
    exact ⟨p.1, List.mem_zipIdx_iff_getElem?.mp hp', rfl⟩
  obtain ⟨e1, e2⟩ := reorder_ok t H ts hx
  refine ⟨_, e1, ?_, e2⟩
  refine (hp.filterMap (fun x => H[x.2]?)).trans ?_
  rw [List.filterMap_map]
  have : List.filterMap ((fun x : Int × Nat => H[x.2]?) ∘ fun p : HaloRec S α × Nat => (t p.1, p.2)) H.zipIdx
      = List.filterMap (some ∘ Prod.fst) H.zipIdx := by
    apply List.filterMap_congr
    intro p hp
    exact List.mem_zipIdx_iff_getElem?.mp hp
  rw [this, List.filterMap_eq_map, List.zipIdx_map_fst]

theorem tally_ok {P : Nat} (t : β → Fin P) (n : β → Nat) : ∀ (L : List β) (c : Fin P → Nat),
    tally P (L.map (fun h => (((t h).val : Int), n h))) c
      = .ok (fun r => c r + ((L.filter (fun h => decide (t h = r))).map n).sum)
  | [], c => by simp [tally]
  | h :: L, c => by
    rw [List.map_cons, tally, dif_pos ⟨by omega, by simp⟩, tally_ok t n L]
    congr 1
    funext r
    have e : (⟨((t h).val : Int).toNat, by simp⟩ : Fin P) = t h := Fin.ext (by simp)
    rw [e]
    by_cases hr : t h = r
    · subst hr
      simp; omega
    · rw [Function.update_of_ne (Ne.symm hr), List.filter_cons_of_neg (by simpa using hr)]

theorem sorted_split (key : β → Nat) (b : Nat) : ∀ (L : List β), L.Pairwise (fun x y => key x ≤ key y) →
    L = L.filter (fun x => decide (key x < b)) ++ L.filter (fun x => decide (b ≤ key x))
  | [], _ => rfl
  | a :: L, hs => by
    have hsl := List.pairwise_cons.mp hs
    have ih := sorted_split key b L hsl.2
    by_cases ha : key a < b
    · rw [List.filter_cons_of_pos (by simpa using ha), List.filter_cons_of_neg (by simpa using ha),
        List.cons_append, ← ih]
    · rw [List.filter_cons_of_neg (by simpa using ha), List.filter_cons_of_pos (by simpa using ha)]
      have h1 : L.filter (fun x => decide (key x < b)) = [] := by
        rw [List.filter_eq_nil_iff]
        intro x hx; have := hsl.1 x hx; simp; omega
      rw [h1] at ih ⊢
      rw [List.nil_append] at *
      rw [← ih]

theorem count_prefix {P : Nat} (t : β → Fin P) (L : List β) (k : Nat) (hk : k ≤ P) :
    ((List.ofFn (fun r => (L.filter (fun h => decide (t h = r))).length)).take k).sum
      = (L.filter (fun h => decide ((t h).val < k))).length := by
  induction k with
  | zero => simp
  | succ k ih =>
    rw [sum_take_succ' _ k (by simp; omega), ih (by omega)]
    simp only [List.getElem_ofFn]
    rw [← List.countP_eq_length_filter, ← List.countP_eq_length_filter, ← List.countP_eq_length_filter]
    clear ih
    induction L with
    | nil => simp
    | cons a L ihL =>
      simp only [List.countP_cons]
      have : (t a = ⟨k, by omega⟩) ↔ (t a).val = k := by
        constructor
        · intro h; rw [h]
        · intro h; exact Fin.ext h
      simp only [this, decide_eq_true_eq]
      split_ifs <;> omega

theorem offOf_count {P : Nat} (t : β → Fin P) (L : List β) (r : Fin P) :
    offOf (fun r => (L.filter (fun h => decide (t h = r))).length) r
      = (L.filter (fun h => decide ((t h).val < r.val))).length := by
  unfold offOf
  exact count_prefix t L r.val (by omega)

theorem sorted_slice {γ : Type} {P : Nat} (t : β → Fin P) (L : List β)
    (hs : L.Pairwise (fun x y => (t x).val ≤ (t y).val)) (r : Fin P) (f : β → γ) :
    slice (L.map f) (offOf (fun r => (L.filter (fun h => decide (t h = r))).length) r)
      ((L.filter (fun h => decide (t h = r))).length)
      = .ok ((L.filter (fun h => decide (t h = r))).map f) := by
  rw [offOf_count]
  have h1 := sorted_split (fun x => (t x).val) r.val L hs
  have h2 := sorted_split (fun x => (t x).val) (r.val+1) (L.filter (fun x => decide (r.val ≤ (t x).val)))
    (hs.sublist List.filter_sublist)
  have h3 : (L.filter (fun x => decide (r.val ≤ (t x).val))).filter (fun x => decide ((t x).val < r.val + 1))
      = L.filter (fun h => decide (t h = r)) := by
    rw [List.filter_filter]
    apply List.filter_congr
    intro x _
    rw [Bool.eq_iff_iff]
    simp only [Bool.and_eq_true, decide_eq_true_eq]
    constructor
    · rintro ⟨a, b⟩; exact Fin.ext (by omega)
    · rintro rfl; omega
  rw [h3] at h2
  rw [h2] at h1
  set A := L.filter (fun x => decide ((t x).val < r.val))
  set B := L.filter (fun h => decide (t h = r))
  set C := List.filter (fun x => decide (r.val + 1 ≤ (t x).val)) (List.filter (fun x => decide (r.val ≤ (t x).val)) L)
  have e : L.map f = A.map f ++ (B.map f ++ C.map f) := by
    conv_lhs => rw [h1]
    simp
  unfold slice
  rw [e, if_pos (by simp)]
  congr 1
  rw [List.drop_left' (by simp), List.take_left' (by simp)]

theorem fillHalos_ok : ∀ (hs : List (List α)), fillHalos (hs.map List.length) hs.flatten = .ok hs
  | [] => rfl
  | h :: hs => by
    rw [List.map_cons, List.flatten_cons, fillHalos.eq_def]
    simp only
    rw [if_pos (by simp), List.drop_left' rfl, fillHalos_ok hs, Outcome.bind_ok, List.take_left' rfl]

theorem zipWith_mk (L : List (HaloRec S α)) :
    List.zipWith HaloRec.mk (L.map HaloRec.shell) (L.map HaloRec.particles) = L := by
  induction L with
  | nil => rfl
  | cons a L ih => simp [ih]

theorem zipWith_target {P : Nat} (t : HaloRec S α → Fin P) (n : HaloRec S α → Nat) :
    ∀ (ts : List (Int × Nat)) (L : List (HaloRec S α)),
    L.map (fun h => ((t h).val : Int)) = ts.map Prod.fst →
    List.zipWith (fun x h => (x.1, n h)) ts L = L.map (fun h => (((t h).val : Int), n h))
  | [], [], _ => rfl
  | [], _ :: _, h => by simp at h
  | _ :: _, [], h => by simp at h
  | x :: ts, a :: L, h => by
    simp only [List.map_cons, List.cons.injEq] at h
    rw [List.zipWith_cons_cons, zipWith_target t n ts L h.2, List.map_cons, h.1]

end HBT
