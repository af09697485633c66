import Verif.Model.OctTree
import Verif.Lemmas.Nest
import Mathlib.Data.List.FinRange
import Mathlib.Data.List.OfFn
import Mathlib.Algebra.Order.Field.Basic
import Mathlib.Tactic.Linarith
import Mathlib.Tactic.Ring
/-!
# Helper lemmas on oct-trees: the tree the cells stand for, and insertion

`Oct` is the shape of a tree; `Repr` says that the arrays of sons represent it.
-/
namespace HBT.OT
open HBT.Model
set_option linter.unusedSectionVars false

inductive Oct where
  | empty
  | leaf (p : Nat)
  | node (k : Nat) (kids : Fin 8 → Oct)

namespace Oct
def ref (N : Nat) : Oct → Int
  | empty => -1
  | leaf p => p
  | node k _ => ((N + k : Nat) : Int)

def leaves : Oct → List Nat
  | empty => []
  | leaf p => [p]
  | node _ kids => (List.finRange 8).flatMap (fun j => (kids j).leaves)

def ids : Oct → List Nat
  | empty => []
  | leaf _ => []
  | node k kids => k :: (List.finRange 8).flatMap (fun j => (kids j).ids)

/-- Every node has a particle below it. -/
def Full : Oct → Prop
  | empty => True
  | leaf _ => True
  | node k kids => (node k kids).leaves ≠ [] ∧ ∀ j, (kids j).Full
end Oct
open Oct

variable {K A S : Type} [Field K] [LinearOrder K] [IsStrictOrderedRing K]

/-- The cells hold the tree (arrays of sons). -/
def Repr (N : Nat) (cells : List (TreeCell K A)) : Oct → Prop
  | .empty => True
  | .leaf p => p < N
  | .node k kids => cells[k]? = some (.sons (List.ofFn fun j => (kids j).ref N)) ∧
      ∀ j, Repr N cells (kids j)

theorem Repr.congr {N : Nat} {cells cells' : List (TreeCell K A)} : ∀ {t : Oct}, Repr N cells t →
    (∀ m ∈ t.ids, cells'[m]? = cells[m]?) → Repr N cells' t
  | .empty, _, _ => trivial
  | .leaf _, h, _ => h
  | .node k kids, h, hc => by
    refine ⟨?_, fun j => ?_⟩
    · rw [hc k (by simp [Oct.ids])]; exact h.1
    · refine Repr.congr (h.2 j) (fun m hm => hc m ?_)
      simp only [Oct.ids, List.mem_cons, List.mem_flatMap]
      exact Or.inr ⟨j, List.mem_finRange j, hm⟩

theorem Repr.leaves_lt {N : Nat} {cells : List (TreeCell K A)} : ∀ {t : Oct}, Repr N cells t →
    ∀ p ∈ t.leaves, p < N
  | .empty, _, p, hp => by simp [Oct.leaves] at hp
  | .leaf q, h, p, hp => by simp [Oct.leaves] at hp; subst hp; exact h
  | .node k kids, h, p, hp => by
    simp only [Oct.leaves, List.mem_flatMap] at hp
    obtain ⟨j, -, hp⟩ := hp
    exact Repr.leaves_lt (h.2 j) p hp

theorem Repr.ids_lt {N : Nat} {cells : List (TreeCell K A)} : ∀ {t : Oct}, Repr N cells t →
    ∀ p ∈ t.ids, p < cells.length
  | .empty, _, p, hp => by simp [Oct.ids] at hp
  | .leaf q, h, p, hp => by simp [Oct.ids] at hp
  | .node k kids, h, p, hp => by
    simp only [Oct.ids, List.mem_cons, List.mem_flatMap] at hp
    rcases hp with rfl | ⟨j, -, hp⟩
    · exact (List.getElem?_eq_some_iff.1 h.1).1
    · exact Repr.ids_lt (h.2 j) p hp

/-! ## Flattening with one entry replaced -/

theorem flatMap_split {α β : Type} [DecidableEq α] (l : List α) (f : α → List β) {a : α} (h : a ∈ l) :
    (l.flatMap f).Perm (f a ++ (l.erase a).flatMap f) :=
  (List.Perm.flatMap_right f (List.perm_cons_erase h)).trans (by simp)

theorem flatMap_update {α β : Type} [DecidableEq α] (l : List α) (hl : l.Nodup) {γ : Type}
    (f : α → γ) (g : γ → List β) {a : α} (h : a ∈ l) (v : γ) :
    (l.flatMap (fun x => g (Function.update f a v x))).Perm (g v ++ (l.erase a).flatMap (fun x => g (f x))) := by
  refine (flatMap_split l _ h).trans ?_
  rw [Function.update_self]
  refine List.Perm.append_left _ (List.Perm.of_eq ?_)
  apply List.flatMap_congr
  intro x hx
  rw [Function.update_of_ne]
  rintro rfl
  exact (List.Nodup.not_mem_erase hl) hx

theorem ofFn_set {α : Type} {n : Nat} (f : Fin n → α) (j : Fin n) (v : α) :
    (List.ofFn f).set j.val v = List.ofFn (Function.update f j v) := by
  apply List.ext_getElem
  · simp
  · intro i h1 h2
    simp only [List.getElem_set, List.getElem_ofFn]
    by_cases e : j.val = i
    · subst e; simp
    · rw [if_neg e, Function.update_of_ne]
      intro h; apply e; rw [← h]

theorem ref_update (N : Nat) (kids : Fin 8 → Oct) (j : Fin 8) (t : Oct) :
    (fun i => (Function.update kids j t i).ref N) = Function.update (fun i => (kids i).ref N) j (t.ref N) := by
  funext i
  by_cases h : i = j
  · subst h; simp
  · simp [Function.update_of_ne h]

/-! ## Geometry -/

/-- Side and centre of the cell of a son, as `GeoTree_t` computes them. -/
def cellOf (res len : K) (c : Fin 3 → K) (j : Nat) : K × (Fin 3 → K) :=
  if len ≥ res then (len / 2, shiftCenter c j (len / 4)) else (len, c)

/-- Particle `p` lies in the cube of side `len` around `c`. -/
def Covers (pts : List (Fin 3 → K)) (len : K) (c : Fin 3 → K) (p : Nat) : Prop :=
  ∀ x, pts[p]? = some x → ∀ d, |x d - c d| ≤ len / 2

def Placed (res : K) (pts : List (Fin 3 → K)) : Oct → K → (Fin 3 → K) → Prop
  | .empty, _, _ => True
  | .leaf p, len, c => Covers pts len c p
  | .node k kids, len, c => (∀ p ∈ (Oct.node k kids).leaves, Covers pts len c p) ∧
      ∀ j : Fin 8, Placed res pts (kids j) (cellOf res len c j).1 (cellOf res len c j).2

theorem Placed.covers {res : K} {pts : List (Fin 3 → K)} : ∀ {t : Oct} {len : K} {c : Fin 3 → K},
    Placed res pts t len c → ∀ p ∈ t.leaves, Covers pts len c p
  | .empty, _, _, _, p, hp => by simp [Oct.leaves] at hp
  | .leaf q, _, _, h, p, hp => by simp [Oct.leaves] at hp; subst hp; exact h
  | .node _ _, _, _, h, p, hp => h.1 p hp

theorem octant_lt (x c : Fin 3 → K) : octant x c < 8 := by
  unfold octant
  split_ifs <;> omega

theorem randomOctant_lt (r : Nat → Nat) (n : Nat) : randomOctant r n < 8 := by
  unfold randomOctant
  split_ifs <;> omega

theorem octant_bit (x c : Fin 3 → K) (d : Fin 3) : octant x c / 2 ^ d.val % 2 = 1 ↔ x d > c d := by
  unfold octant
  by_cases h0 : x 0 > c 0 <;> by_cases h1 : x 1 > c 1 <;> by_cases h2 : x 2 > c 2 <;>
    simp only [h0, h1, h2, if_true, if_false] <;> match d with
    | 0 => simp_all
    | 1 => simp_all
    | 2 => simp_all

theorem octantCenter_eq (x c : Fin 3 → K) (h : K) : octantCenter x c h = shiftCenter c (octant x c) h := by
  funext d
  unfold octantCenter shiftCenter
  simp only [octant_bit]

theorem covers_octant {x c : Fin 3 → K} {len : K} (h : ∀ d, |x d - c d| ≤ len / 2) (d : Fin 3) :
    |x d - shiftCenter c (octant x c) (len / 4) d| ≤ len / 4 := by
  rw [← octantCenter_eq]
  unfold octantCenter
  have := abs_le.1 (h d)
  rw [abs_le]
  split_ifs with hx
  · constructor <;> linarith [this.1, this.2]
  · have hx : x d ≤ c d := not_lt.1 hx
    constructor <;> linarith [this.1, this.2]

/-- The geometry of `Build` and the geometry of `UpdateInternalNodes` at a node: the same cell, or a
cell below the resolution that is kept. -/
def Agree (res len : K) (c : Fin 3 → K) (lenhalf : K) (center : Fin 3 → K) : Prop :=
  0 ≤ lenhalf ∧ ((len = 2 * lenhalf ∧ c = center) ∨ (len < res ∧ 2 * lenhalf ≤ len))

theorem Agree.child {res len lenhalf : K} {c center x : Fin 3 → K} (h : Agree res len c lenhalf center) :
    Agree res (cellOf res len c (octant x center)).1 (cellOf res len c (octant x center)).2 (lenhalf / 2)
      (octantCenter x center (lenhalf / 2)) := by
  obtain ⟨h0, h⟩ := h
  refine ⟨by linarith, ?_⟩
  unfold cellOf
  by_cases hl : len ≥ res
  · rw [if_pos hl]
    rcases h with ⟨rfl, rfl⟩ | ⟨h, -⟩
    · left
      refine ⟨by dsimp only; ring, ?_⟩
      rw [octantCenter_eq]
      dsimp only
      congr 1; ring
    · exact absurd h (not_lt.2 hl)
  · rw [if_neg hl]
    right
    refine ⟨not_le.1 hl, ?_⟩
    dsimp only
    rcases h with ⟨rfl, rfl⟩ | ⟨-, h⟩ <;> linarith

theorem Agree.covers_child {res len lenhalf : K} {c center x : Fin 3 → K} (h : Agree res len c lenhalf center)
    (hx : ∀ d, |x d - c d| ≤ len / 2) (d : Fin 3) :
    |x d - (cellOf res len c (octant x center)).2 d| ≤ (cellOf res len c (octant x center)).1 / 2 := by
  obtain ⟨h0, h⟩ := h
  unfold cellOf
  by_cases hl : len ≥ res
  · rw [if_pos hl]
    rcases h with ⟨rfl, rfl⟩ | ⟨h, -⟩
    · have := covers_octant hx d
      dsimp only
      linarith
    · exact absurd h (not_lt.2 hl)
  · rw [if_neg hl]; exact hx d

/-! ## Cell accesses -/

theorem readSons_some {cells : List (TreeCell K A)} {k : Nat} {l : List Int} (h : cells[k]? = some (.sons l)) :
    readSons cells k = .ok l := by simp [readSons, h]

theorem writeSon_some {cells : List (TreeCell K A)} {k : Nat} {f : Fin 8 → Int}
    (h : cells[k]? = some (.sons (List.ofFn f))) (j : Fin 8) (v : Int) :
    writeSon cells k j.val v = .ok (cells.set k (.sons (List.ofFn (Function.update f j v)))) := by
  have hk := (List.getElem?_eq_some_iff.1 h).1
  unfold writeSon
  rw [readSons_some h, Outcome.bind_ok, Outcome.set_of_lt (by simp), Outcome.bind_ok, ofFn_set,
    Outcome.set_of_lt hk]

theorem getSon {f : Fin 8 → Int} (j : Fin 8) : Outcome.get (List.ofFn f) j.val = .ok (f j) := by
  rw [Outcome.get_of_lt (by simp), List.getElem_ofFn]

theorem replicate_eq : List.replicate 8 (-1 : Int) = List.ofFn (fun _ : Fin 8 => (-1 : Int)) := by
  rfl

/-- A node whose only son is particle `q` in slot `s`. -/
def single (k : Nat) (s : Fin 8) (q : Nat) : Oct := .node k (Function.update (fun _ => .empty) s (.leaf q))

theorem empties_leaves (l : List (Fin 8)) : l.flatMap (fun _ => Oct.empty.leaves) = [] := by
  simp [Oct.leaves]

theorem single_leaves (k : Nat) (s : Fin 8) (q : Nat) : (single k s q).leaves = [q] := by
  have := flatMap_update (List.finRange 8) (List.nodup_finRange 8) (fun _ => Oct.empty) Oct.leaves
    (List.mem_finRange s) (.leaf q)
  have e : ((List.finRange 8).erase s).flatMap (fun _ => Oct.empty.leaves) = [] := empties_leaves _
  rw [e] at this
  exact List.perm_singleton.1 this

theorem single_ids (k : Nat) (s : Fin 8) (q : Nat) : (single k s q).ids = [k] := by
  have : ∀ j, (Function.update (fun _ => Oct.empty) s (Oct.leaf q) j).ids = [] := by
    intro j
    by_cases h : j = s
    · subst h; simp [Oct.ids]
    · simp [Function.update_of_ne h, Oct.ids]
  simp [single, Oct.ids, this]

/-- The cells after a particle node has been upgraded to the internal node `new`. -/
def upgraded (N : Nat) (cells : List (TreeCell K A)) (k : Nat) (f : Fin 8 → Int) (j s : Fin 8) (q : Nat) :
    List (TreeCell K A) :=
  ((cells.set k (.sons (List.ofFn (Function.update f j ((N + cells.length : Nat) : Int)))))) ++
    [.sons (List.ofFn (Function.update (fun _ => (-1 : Int)) s (q : Int)))]

theorem upgraded_length (N : Nat) (cells : List (TreeCell K A)) (k : Nat) (f : Fin 8 → Int) (j s : Fin 8) (q : Nat) :
    (upgraded N cells k f j s q).length = cells.length + 1 := by simp [upgraded]

theorem upgrade_first {N : Nat} {cells : List (TreeCell K A)} {k : Nat} {f : Fin 8 → Int}
    (h : cells[k]? = some (.sons (List.ofFn f))) (j : Fin 8) :
    writeSon (cells ++ [TreeCell.sons (List.replicate 8 (-1))]) k j.val ((N + cells.length : Nat) : Int) =
      .ok (cells.set k (.sons (List.ofFn (Function.update f j ((N + cells.length : Nat) : Int)))) ++
        [.sons (List.ofFn (fun _ : Fin 8 => (-1 : Int)))]) := by
  have hk := (List.getElem?_eq_some_iff.1 h).1
  rw [writeSon_some (f := f) (by rw [List.getElem?_append_left hk]; exact h), List.set_append_left _ _ hk,
    replicate_eq]

theorem upgrade_second {N : Nat} {cells : List (TreeCell K A)} {k : Nat} {f : Fin 8 → Int}
    (j s : Fin 8) (q : Nat) :
    writeSon (cells.set k (.sons (List.ofFn (Function.update f j ((N + cells.length : Nat) : Int)))) ++
        [.sons (List.ofFn (fun _ : Fin 8 => (-1 : Int)))]) cells.length s.val (q : Int) =
      .ok (upgraded N cells k f j s q) := by
  rw [writeSon_some (f := fun _ => (-1 : Int))]
  · congr 1
    unfold upgraded
    rw [List.set_append_right _ _ (by simp)]
    simp
  · rw [List.getElem?_append_right (by simp)]
    simp

theorem upgraded_old {N : Nat} {cells : List (TreeCell K A)} {k : Nat} {f : Fin 8 → Int} {j s : Fin 8} {q m : Nat}
    (hm : m < cells.length) (hk : m ≠ k) : (upgraded N cells k f j s q)[m]? = cells[m]? := by
  unfold upgraded
  rw [List.getElem?_append_left (by simpa using hm), List.getElem?_set_ne (Ne.symm hk)]

theorem upgraded_self {N : Nat} {cells : List (TreeCell K A)} {k : Nat} {f : Fin 8 → Int} {j s : Fin 8} {q : Nat}
    (hk : k < cells.length) : (upgraded N cells k f j s q)[k]? =
      some (.sons (List.ofFn (Function.update f j ((N + cells.length : Nat) : Int)))) := by
  unfold upgraded
  rw [List.getElem?_append_left (by simpa using hk), List.getElem?_set_self hk]

theorem upgraded_new {N : Nat} {cells : List (TreeCell K A)} {k : Nat} {f : Fin 8 → Int} {j s : Fin 8} {q : Nat} :
    (upgraded N cells k f j s q)[cells.length]? =
      some (.sons (List.ofFn (Function.update (fun _ => (-1 : Int)) s (q : Int)))) := by
  unfold upgraded
  rw [List.getElem?_append_right (by simp)]
  simp

theorem single_repr {N : Nat} {cells : List (TreeCell K A)} {k : Nat} {f : Fin 8 → Int} {j s : Fin 8} {q : Nat}
    (hq : q < N) : Repr N (upgraded N cells k f j s q) (single cells.length s q) := by
  refine ⟨?_, fun i => ?_⟩
  · rw [upgraded_new, ref_update]
    rfl
  · by_cases h : i = s
    · subst h; simpa [Repr] using hq
    · simp [Function.update_of_ne h, Repr]

theorem single_full (k : Nat) (s : Fin 8) (q : Nat) : (single k s q).Full := by
  refine ⟨by rw [← single, single_leaves]; simp, fun i => ?_⟩
  by_cases h : i = s
  · subst h; simp [Oct.Full]
  · simp [Function.update_of_ne h, Oct.Full]

theorem single_placed {res len : K} {pts : List (Fin 3 → K)} {c : Fin 3 → K} {k : Nat} {s : Fin 8} {q : Nat}
    (h : Covers pts len c q) (h' : Covers pts (cellOf res len c s).1 (cellOf res len c s).2 q) :
    Placed res pts (single k s q) len c := by
  refine ⟨fun p hp => ?_, fun i => ?_⟩
  · rw [← single, single_leaves] at hp
    simp at hp; subst hp; exact h
  · by_cases hi : i = s
    · subst hi; simpa [Placed] using h'
    · simp [Function.update_of_ne hi, Placed]

/-! ## One kid replaced -/

theorem leaves_update (k : Nat) (kids : Fin 8 → Oct) (j : Fin 8) (t : Oct) :
    (Oct.node k (Function.update kids j t)).leaves.Perm
      (t.leaves ++ ((List.finRange 8).erase j).flatMap (fun i => (kids i).leaves)) :=
  flatMap_update (List.finRange 8) (List.nodup_finRange 8) kids Oct.leaves (List.mem_finRange j) t

theorem leaves_split (k : Nat) (kids : Fin 8 → Oct) (j : Fin 8) :
    (Oct.node k kids).leaves.Perm
      ((kids j).leaves ++ ((List.finRange 8).erase j).flatMap (fun i => (kids i).leaves)) :=
  flatMap_split _ _ (List.mem_finRange j)

theorem ids_update (k : Nat) (kids : Fin 8 → Oct) (j : Fin 8) (t : Oct) :
    (Oct.node k (Function.update kids j t)).ids.Perm
      (k :: (t.ids ++ ((List.finRange 8).erase j).flatMap (fun i => (kids i).ids))) :=
  (flatMap_update (List.finRange 8) (List.nodup_finRange 8) kids Oct.ids (List.mem_finRange j) t).cons k

theorem ids_split (k : Nat) (kids : Fin 8 → Oct) (j : Fin 8) :
    (Oct.node k kids).ids.Perm
      (k :: ((kids j).ids ++ ((List.finRange 8).erase j).flatMap (fun i => (kids i).ids))) :=
  (flatMap_split _ _ (List.mem_finRange j)).cons k

theorem mem_other {kids : Fin 8 → Oct} {j i : Fin 8} (h : i ≠ j) {m : Nat} (hm : m ∈ (kids i).ids) :
    m ∈ ((List.finRange 8).erase j).flatMap (fun i => (kids i).ids) :=
  List.mem_flatMap.2 ⟨i, (List.mem_erase_of_ne h).2 (List.mem_finRange i), hm⟩

/-- What an insertion does to a represented tree. -/
structure Grown (res : K) (pts : List (Fin 3 → K)) (N i : Nat) (cells : List (TreeCell K A)) (t : Oct) (len : K) (c : Fin 3 → K)
    (cells' : List (TreeCell K A)) (t' : Oct) : Prop where
  repr : Repr N cells' t'
  leaves : t'.leaves.Perm (i :: t.leaves)
  nodup : t'.ids.Nodup
  ids : ∀ m, m ∈ t'.ids ↔ m ∈ t.ids ∨ cells.length ≤ m ∧ m < cells'.length
  le : cells.length ≤ cells'.length
  frame : ∀ m, m < cells.length → m ∉ t.ids → cells'[m]? = cells[m]?
  placed : Placed res pts t' len c
  full : t'.Full

/-- Growing one son grows the node. -/
theorem Grown.up {res : K} {pts : List (Fin 3 → K)} {N i : Nat} {cells cells1 cells2 : List (TreeCell K A)} {k : Nat}
    {kids : Fin 8 → Oct} {j : Fin 8} {len : K} {c : Fin 3 → K} {t1 t2 : Oct}
    (hr : Repr N cells (.node k kids)) (hn : (Oct.node k kids).ids.Nodup)
    (hp : Placed res pts (.node k kids) len c) (hf : ∀ j, (kids j).Full)
    (hi : Covers pts len c i)
    (hle : cells.length ≤ cells1.length)
    (hself : cells1[k]? = some (.sons (List.ofFn (fun m => (Function.update kids j t2 m).ref N))))
    (hold : ∀ m, m < cells.length → m ≠ k → cells1[m]? = cells[m]?)
    (hids1 : ∀ m, m ∈ t1.ids ↔ m ∈ (kids j).ids ∨ cells.length ≤ m ∧ m < cells1.length)
    (hl1 : t1.leaves.Perm (kids j).leaves)
    (g : Grown res pts N i cells1 t1 (cellOf res len c j).1 (cellOf res len c j).2 cells2 t2) :
    Grown res pts N i cells (.node k kids) len c cells2 (.node k (Function.update kids j t2)) := by
  have hsp := ids_split k kids j
  have hn' := (hsp.nodup_iff).1 hn
  rw [List.nodup_cons, List.nodup_append] at hn'
  obtain ⟨hk, hnj, hno, hdis⟩ := hn'
  simp only [List.mem_append, not_or] at hk
  have hlt := Repr.ids_lt hr
  have hkl : k < cells.length := hlt k (by simp [Oct.ids])
  have hjl : ∀ m ∈ (kids j).ids, m < cells.length := fun m hm => hlt m (hsp.mem_iff.2 (by simp [hm]))
  have hol : ∀ m ∈ ((List.finRange 8).erase j).flatMap (fun i => (kids i).ids), m < cells.length :=
    fun m hm => hlt m (hsp.mem_iff.2 (by simp only [List.mem_cons, List.mem_append]; exact Or.inr (Or.inr hm)))
  have hk1 : k ∉ t1.ids := by
    rw [hids1]; rintro (h | h)
    · exact hk.1 h
    · omega
  have ho1 : ∀ m ∈ ((List.finRange 8).erase j).flatMap (fun i => (kids i).ids), m ∉ t1.ids := by
    intro m hm h
    rw [hids1] at h
    rcases h with h | h
    · exact hdis m h m hm rfl
    · have := hol m hm; omega
  have hself2 : cells2[k]? = cells1[k]? := g.frame k (by omega) hk1
  have hother2 : ∀ m ∈ ((List.finRange 8).erase j).flatMap (fun i => (kids i).ids), cells2[m]? = cells[m]? := by
    intro m hm
    rw [g.frame m (by have := hol m hm; omega) (ho1 m hm)]
    exact hold m (hol m hm) (by rintro rfl; exact hk.2 hm)
  constructor
  · refine ⟨by rw [hself2, hself], fun m => ?_⟩
    by_cases hm : m = j
    · subst hm; rw [Function.update_self]; exact g.repr
    · rw [Function.update_of_ne hm]
      exact (hr.2 m).congr (fun a ha => hother2 a (mem_other hm ha))
  · refine (leaves_update k kids j t2).trans ?_
    refine (List.Perm.append_right _ (g.leaves.trans (hl1.cons i))).trans ?_
    exact ((leaves_split k kids j).symm).cons i
  · refine (ids_update k kids j t2).nodup_iff.2 ?_
    rw [List.nodup_cons, List.nodup_append]
    refine ⟨?_, g.nodup, hno, ?_⟩
    · simp only [List.mem_append, not_or]
      refine ⟨?_, hk.2⟩
      rw [g.ids]; rintro (h | h)
      · exact hk1 h
      · omega
    · rintro a ha b hb rfl
      rw [g.ids] at ha
      rcases ha with h | h
      · exact ho1 a hb h
      · have := hol a hb; omega
  · intro m
    rw [(ids_update k kids j t2).mem_iff, hsp.mem_iff]
    simp only [List.mem_cons, List.mem_append]
    rw [g.ids, hids1]
    have := g.le
    constructor
    · rintro (h | ((h | h) | h) | h)
      · exact Or.inl (Or.inl h)
      · exact Or.inl (Or.inr (Or.inl h))
      · right; omega
      · right; omega
      · exact Or.inl (Or.inr (Or.inr h))
    · rintro ((h | h | h) | h)
      · exact Or.inl h
      · exact Or.inr (Or.inl (Or.inl (Or.inl h)))
      · exact Or.inr (Or.inr h)
      · right; left
        by_cases hc : m < cells1.length
        · left; right; omega
        · right; omega
  · exact hle.trans g.le
  · intro m hm hnot
    rw [hsp.mem_iff] at hnot
    simp only [List.mem_cons, List.mem_append, not_or] at hnot
    rw [g.frame m (by omega)]
    · exact hold m hm hnot.1
    · rw [hids1]; rintro (h | h)
      · exact hnot.2.1 h
      · omega
  · refine ⟨fun p hpm => ?_, fun m => ?_⟩
    · have := ((leaves_update k kids j t2).mem_iff).1 hpm
      rw [List.mem_append] at this
      have key : ∀ q, q ∈ (Oct.node k kids).leaves → Covers pts len c q := hp.1
      rcases this with h | h
      · have := (g.leaves.mem_iff).1 h
        rw [List.mem_cons] at this
        rcases this with rfl | h
        · exact hi
        · exact key p ((leaves_split k kids j).mem_iff.2 (List.mem_append_left _ ((hl1.mem_iff).1 h)))
      · exact key p ((leaves_split k kids j).mem_iff.2 (List.mem_append_right _ h))
    · by_cases hm : m = j
      · subst hm; rw [Function.update_self]; exact g.placed
      · rw [Function.update_of_ne hm]; exact hp.2 m
  · refine ⟨?_, fun m => ?_⟩
    · intro h
      have h1 := (leaves_update k kids j t2).length_eq
      have h2 := g.leaves.length_eq
      rw [h] at h1
      simp at h1 h2
      omega
    · by_cases hm : m = j
      · subst hm; rw [Function.update_self]; exact g.full
      · rw [Function.update_of_ne hm]; exact hf m

theorem ref_neg {N : Nat} {t : Oct} (h : t.ref N < 0) : t = .empty := by
  cases t <;> simp [Oct.ref] at h ⊢ <;> omega

theorem ref_leaf {N : Nat} {t : Oct} (h0 : ¬ t.ref N < 0) (h : t.ref N < N) :
    ∃ p, t = .leaf p := by
  cases t with
  | empty => simp [Oct.ref] at h0
  | leaf p => exact ⟨p, rfl⟩
  | node k kids => simp [Oct.ref] at h; omega

theorem ref_node {N : Nat} {cells : List (TreeCell K A)} {t : Oct} (hr : Repr N cells t) (h0 : ¬ t.ref N < 0)
    (h : ¬ t.ref N < N) : ∃ k kids, t = .node k kids := by
  cases t with
  | empty => simp [Oct.ref] at h0
  | leaf p => simp [Oct.ref, Repr] at h hr; omega
  | node k kids => exact ⟨k, kids, rfl⟩

/-- One insertion: it either runs on, or grows the tree by the particle. -/
theorem insertLoop_grown (res resHalf : K) (hres : res = 2 * resHalf) (rand : Nat → Nat) (pts : List (Fin 3 → K))
    (N i : Nat) (hN : N ≤ pts.length) (hi : i < N) : ∀ (fuel draws : Nat) (cells : List (TreeCell K A)) (k : Nat)
    (kids : Fin 8 → Oct) (lenhalf len : K) (center c : Fin 3 → K),
    Repr N cells (.node k kids) → (Oct.node k kids).ids.Nodup → Placed res pts (.node k kids) len c →
    (∀ j, (kids j).Full) → Covers pts len c i → Agree res len c lenhalf center →
    insertLoop resHalf rand pts N i fuel draws cells k lenhalf center = .diverge ∨
    ∃ cells' draws' kids', insertLoop resHalf rand pts N i fuel draws cells k lenhalf center = .ok (cells', draws') ∧
      Grown res pts N i cells (.node k kids) len c cells' (.node k kids') := by
  intro fuel
  induction fuel with
  | zero => intros; left; rfl
  | succ fuel ih =>
    intro draws cells k kids lenhalf len center c hr hn hp hf hc ha
    obtain ⟨x, hx⟩ : ∃ x, pts[i]? = some x := ⟨_, List.getElem?_eq_getElem (by omega)⟩
    rw [insertLoop]
    simp only [get_some hx, Outcome.bind_ok, readSons_some hr.1]
    obtain ⟨j, hj⟩ : ∃ j : Fin 8, j.val = octant x center := ⟨⟨_, octant_lt x center⟩, rfl⟩
    rw [← hj, getSon]
    simp only [Outcome.bind_ok]
    have hac := ha.child (x := x)
    have hci := ha.covers_child (hc x hx)
    rw [← hj] at hac hci
    have hci : Covers pts (cellOf res len c j).1 (cellOf res len c j).2 i := by
      intro y hy; rw [hx] at hy; cases hy; exact hci
    have hkl : k < cells.length := Repr.ids_lt hr k (by simp [Oct.ids])
    by_cases h0 : (kids j).ref N < 0
    · rw [if_pos h0, writeSon_some hr.1]
      right
      refine ⟨_, _, Function.update kids j (.leaf i), rfl, ?_⟩
      have he := ref_neg h0
      refine Grown.up (cells1 := cells.set k (.sons (List.ofFn (Function.update (fun j => (kids j).ref N) j (i : Int)))))
        (t1 := .empty) hr hn hp hf hc (by simp) ?_ ?_ ?_ ?_ ?_
      · rw [List.getElem?_set_self hkl, ref_update]; rfl
      · intro m _ hm; rw [List.getElem?_set_ne (Ne.symm hm)]
      · intro m; rw [he]; simp [Oct.ids]
      · rw [he]
      · constructor
        · exact hi
        · simp [Oct.leaves]
        · simp [Oct.ids]
        · intro m; simp [Oct.ids]
        · simp
        · intros; rfl
        · exact hci
        · trivial
    · rw [if_neg h0]
      by_cases h1 : (kids j).ref N < N
      · rw [if_pos h1]
        obtain ⟨q, hq⟩ := ref_leaf h0 h1
        have hqr := hr.2 j
        rw [hq] at hqr
        have hqN : q < N := hqr
        have hqc : Covers pts (cellOf res len c j).1 (cellOf res len c j).2 q := by
          have := hp.2 j; rw [hq] at this; exact this
        have hrq : (kids j).ref N = (q : Int) := by rw [hq]; rfl
        -- the common end of both ways to place the old particle
        have fin : ∀ (s : Fin 8) (d : Nat),
            Covers pts (cellOf res (cellOf res len c j).1 (cellOf res len c j).2 s).1
              (cellOf res (cellOf res len c j).1 (cellOf res len c j).2 s).2 q →
            insertLoop resHalf rand pts N i fuel d (upgraded N cells k (fun j => (kids j).ref N) j s q) cells.length
              (lenhalf / 2) (octantCenter x center (lenhalf / 2)) = .diverge ∨
            ∃ cells' draws' kids', insertLoop resHalf rand pts N i fuel d (upgraded N cells k (fun j => (kids j).ref N) j s q)
              cells.length (lenhalf / 2) (octantCenter x center (lenhalf / 2)) = .ok (cells', draws') ∧
              Grown res pts N i cells (.node k kids) len c cells' (.node k kids') := by
          intro s d hs
          rcases ih d (upgraded N cells k (fun j => (kids j).ref N) j s q) cells.length
            (Function.update (fun _ => .empty) s (.leaf q)) (lenhalf / 2) _ _ _ (single_repr hqN)
            (by rw [← single, single_ids]; simp) (single_placed hqc hs) (single_full cells.length s q).2 hci hac with h | h
          · exact Or.inl h
          · right
            obtain ⟨cells', draws', kids', he, g⟩ := h
            refine ⟨cells', draws', _, he, Grown.up hr hn hp hf hc (by rw [upgraded_length]; omega) ?_ ?_ ?_ ?_ g⟩
            · rw [upgraded_self hkl, ref_update]; rfl
            · intro m hm hmk; exact upgraded_old hm hmk
            · intro m; rw [← single, single_ids, hq, upgraded_length]; simp [Oct.ids]; omega
            · rw [← single, single_leaves, hq]; simp [Oct.leaves]
        rw [upgrade_first hr.1, hrq]
        simp only [Outcome.bind_ok]
        by_cases hl : lenhalf / 2 < resHalf
        · rw [if_pos hl, upgrade_second j ⟨_, randomOctant_lt rand draws⟩ q, Outcome.bind_ok]
          refine fin _ _ ?_
          have hlt : (cellOf res len c j).1 < res := by
            rcases hac.2 with ⟨h, -⟩ | ⟨h, -⟩
            · rw [h, hres]; linarith
            · exact h
          rw [cellOf, if_neg (not_le.2 hlt)]
          exact hqc
        · rw [if_neg hl]
          obtain ⟨y, hy⟩ : ∃ y, pts[q]? = some y := ⟨_, List.getElem?_eq_getElem (by omega)⟩
          rw [Int.toNat_natCast, get_some hy, Outcome.bind_ok,
            upgrade_second j ⟨_, octant_lt y (octantCenter x center (lenhalf / 2))⟩ q, Outcome.bind_ok]
          refine fin _ _ ?_
          rcases hac.2 with ⟨h, hcc⟩ | ⟨h, h'⟩
          · intro z hz d
            rw [hy] at hz; cases hz
            have := (show Agree res (cellOf res len c j).1 (cellOf res len c j).2 (lenhalf / 2)
              (octantCenter x center (lenhalf / 2)) from hac).covers_child (hqc y hy) d
            exact this
          · exfalso; have := not_lt.1 hl; linarith [h, h', hres]
      · rw [if_neg h1]
        obtain ⟨k', kids1, hk'⟩ := ref_node (hr.2 j) h0 h1
        have hrn : (kids j).ref N = ((N + k' : Nat) : Int) := by rw [hk']; rfl
        have e : ((kids j).ref N).toNat - N = k' := by rw [hrn, Int.toNat_natCast]; omega
        rw [e]
        have hrj := hr.2 j
        have hpj := hp.2 j
        have hfj := hf j
        rw [hk'] at hrj hpj hfj
        have hnj : (Oct.node k' kids1).ids.Nodup := by
          have := (ids_split k kids j).nodup_iff.1 hn
          rw [List.nodup_cons, List.nodup_append] at this
          rw [← hk']; exact this.2.1
        rcases ih draws cells k' kids1 (lenhalf / 2) _ _ _ hrj hnj hpj hfj.2 hci hac with h | h
        · exact Or.inl h
        · right
          obtain ⟨cells', draws', kids', he, g⟩ := h
          refine ⟨cells', draws', _, he, Grown.up (j := j) hr hn hp hf hc le_rfl ?_ ?_ ?_ ?_ g⟩
          · rw [hr.1, ref_update]
            congr 3
            funext m
            by_cases hm : m = j
            · subst hm; simp [hk', Oct.ref]
            · simp [Function.update_of_ne hm]
          · intros; rfl
          · intro m; rw [hk']; constructor
            · exact Or.inl
            · rintro (h | h)
              · exact h
              · omega
          · rw [hk']

end HBT.OT
