import Verif.Model.Moments
import Verif.Spec.Moments
import Verif.Lemmas.Average
import Mathlib.Algebra.BigOperators.Group.List.Lemmas
import Mathlib.Algebra.BigOperators.Fin
import Mathlib.Tactic.Ring
/-!
# Lemmas on sums over the bound particles
-/
set_option linter.unusedSectionVars false
namespace HBT
open HBT.Model HBT.Spec
variable {K : Type} [Field K] [LinearOrder K] {α β : Type}

theorem foldl_add_sum [AddCommMonoid β] (f : α → β) (l : List α) (a : β) :
    l.foldl (fun s p => s + f p) a = a + (l.map f).sum := by
  induction l generalizing a with
  | nil => simp
  | cons p l ih => rw [List.foldl_cons, ih, List.map_cons, List.sum_cons, add_assoc]

/-- Whatever the schedule, a reduction is the sum over all elements. -/
theorem reduction_eq [AddCommMonoid β] (split : List α → List (List α)) (hs : ParallelSplit split)
    (f : α → β) (l : List α) : reduction split f l = (l.map f).sum := by
  have h : ∀ cs : List (List α), (cs.map (fun c => c.foldl (fun s p => s + f p) 0)).foldl (· + ·) 0
      = (cs.flatten.map f).sum := by
    intro cs
    have h1 := foldl_add_sum (fun x : β => x) (cs.map (fun c => c.foldl (fun s p => s + f p) 0)) 0
    rw [h1]
    clear h1
    induction cs with
    | nil => simp
    | cons c cs ih =>
      simp only [List.map_cons, List.map_id', List.sum_cons, List.flatten_cons, List.map_append,
        List.sum_append, zero_add] at ih ⊢
      rw [ih, foldl_add_sum, zero_add]
  rw [reduction, h]
  exact ((hs.perm l).map f).sum_eq

/-! ### Types -/

/-- (type, mass) of a particle. -/
def typeOf (p : TypedParticle K) : Int × K := (p.type, p.mass)

theorem addTypes_eq (skip : Bool) (ps : List (TypedParticle K))
    (ht : ∀ p ∈ ps, (skip = true ∧ p.id = nullId) ∨ (0 ≤ p.type ∧ p.type < 6)) (tab : TypeTable K) :
    addTypes skip tab ps = .ok (fun t =>
      ((tab t).1 + typeCount t.val ((ps.filter (fun p => ¬ (skip = true ∧ p.id = nullId))).map typeOf),
       (tab t).2 + typeMass t.val ((ps.filter (fun p => ¬ (skip = true ∧ p.id = nullId))).map typeOf))) := by
  induction ps generalizing tab with
  | nil => simp [addTypes, typeCount, typeMass]
  | cons p ps ih =>
    rw [addTypes]
    by_cases hsk : skip = true ∧ p.id = nullId
    · rw [if_pos hsk, ih (fun q hq => ht q (by simp [hq]))]
      rw [List.filter_cons_of_neg (by simpa using hsk)]
    · rw [if_neg hsk]
      have h6 := (ht p (by simp)).resolve_left hsk
      have hc : 0 ≤ p.type ∧ p.type.toNat < 6 := ⟨h6.1, by omega⟩
      rw [addType, dif_pos hc]
      simp only [Outcome.bind_ok]
      rw [ih (fun q hq => ht q (by simp [hq])), List.filter_cons_of_pos (by simpa [imp_iff_not_or] using hsk)]
      congr 1
      funext t
      by_cases he : t = ⟨p.type.toNat, hc.2⟩
      · have hv : (t.val : Int) = p.type := by rw [he]; simp; omega
        subst he
        simp only [Function.update_self, List.map_cons, typeCount, typeMass]
        simp only at hv
        rw [List.countP_cons_of_pos (by simp [typeOf, hv]), List.filter_cons_of_pos (by simp [typeOf, hv])]
        simp only [List.map_cons, List.sum_cons, typeOf]
        refine Prod.ext ?_ ?_
        · simp only; omega
        · simp only; ring
      · have hv : (t.val : Int) ≠ p.type := by
          intro h
          apply he
          apply Fin.ext
          simp only
          omega
        rw [Function.update_of_ne he]
        simp only [List.map_cons, typeCount, typeMass]
        rw [List.countP_cons_of_neg (by simpa [typeOf] using fun h => hv h.symm),
          List.filter_cons_of_neg (by simpa [typeOf] using fun h => hv h.symm)]

theorem typeCount_append (t : Int) (a b : List (Int × K)) :
    typeCount t (a ++ b) = typeCount t a + typeCount t b := by simp [typeCount]

theorem typeMass_append (t : Int) (a b : List (Int × K)) :
    typeMass t (a ++ b) = typeMass t a + typeMass t b := by simp [typeMass]

theorem threadTypes_eq (cs : List (List (TypedParticle K)))
    (ht : ∀ p ∈ cs.flatten, 0 ≤ p.type ∧ p.type < 6) (tab : TypeTable K) :
    threadTypes tab cs = .ok (fun t => ((tab t).1 + typeCount t.val (cs.flatten.map typeOf),
      (tab t).2 + typeMass t.val (cs.flatten.map typeOf))) := by
  induction cs generalizing tab with
  | nil => simp [threadTypes, typeCount, typeMass]
  | cons c cs ih =>
    rw [threadTypes, addTypes_eq false c (fun p hp => .inr (ht p (by simp [hp])))]
    simp only [Outcome.bind_ok]
    rw [ih (fun p hp => ht p (by simp only [List.flatten_cons, List.mem_append]; exact .inr hp))]
    congr 1
    funext t
    simp only [List.flatten_cons, List.map_append, typeCount_append, typeMass_append,
      Bool.false_eq_true, false_and, not_false_eq_true, decide_true, List.filter_true, zero_add]
    refine Prod.ext ?_ ?_
    · simp only; omega
    · simp only; ring

theorem typeCount_cons (t : Int) (p : Int × K) (ps : List (Int × K)) :
    typeCount t (p :: ps) = (if p.1 = t then 1 else 0) + typeCount t ps := by
  simp only [typeCount, List.countP_cons, beq_iff_eq]
  omega

theorem typeMass_cons (t : Int) (p : Int × K) (ps : List (Int × K)) :
    typeMass t (p :: ps) = (if p.1 = t then p.2 else 0) + typeMass t ps := by
  unfold typeMass
  by_cases h : p.1 = t
  · rw [List.filter_cons_of_pos (by simpa using h), if_pos h]; simp
  · rw [List.filter_cons_of_neg (by simpa using h), if_neg h, zero_add]

theorem sum_types (ps : List (Int × K)) (ht : ∀ p ∈ ps, 0 ≤ p.1 ∧ p.1 < 6) :
    ∑ t : Fin 6, typeCount (t.val : Int) ps = ps.length ∧
    ∑ t : Fin 6, typeMass (t.val : Int) ps = (ps.map (·.2)).sum := by
  induction ps with
  | nil => simp [typeCount, typeMass]
  | cons p ps ih =>
    obtain ⟨h1, h2⟩ := ih (fun q hq => ht q (by simp [hq]))
    have hp := ht p (by simp)
    have he : ∀ t : Fin 6, (p.1 = (t.val : Int)) = (t = ⟨p.1.toNat, by omega⟩) := by
      intro t
      apply propext
      rw [Fin.ext_iff]
      simp only
      omega
    constructor
    · simp only [typeCount_cons, Finset.sum_add_distrib, h1, he, Finset.sum_ite_eq', Finset.mem_univ, if_true,
        List.length_cons]
      omega
    · simp only [typeMass_cons, Finset.sum_add_distrib, h2, he, Finset.sum_ite_eq', Finset.mem_univ, if_true,
        List.map_cons, List.sum_cons]

/-! ### Shape -/

theorem along_products (d n : Fin 3 → K) : along (products d) n = dot d n * dot d n := by
  simp only [along, products, dot]; ring

theorem along_sum (l : List (Fin 6 → K)) (n : Fin 3 → K) :
    along l.sum n = (l.map (fun T => along T n)).sum := by
  induction l with
  | nil => simp [along]
  | cons T l ih =>
    rw [List.sum_cons, List.map_cons, List.sum_cons, ← ih]
    simp only [along, Pi.add_apply]; ring

theorem along_mul (T : Fin 6 → K) (m : K) (n : Fin 3 → K) :
    along (fun k => T k * m) n = along T n * m := by
  simp only [along]; ring

theorem along_div (T : Fin 6 → K) (m : K) (n : Fin 3 → K) :
    along (fun k => T k / m) n = along T n / m := by
  simp only [along]; ring

theorem sum_fst {A B : Type} [AddCommMonoid A] [AddCommMonoid B] (l : List (A × B)) :
    l.sum.1 = (l.map (·.1)).sum := by
  induction l with
  | nil => rfl
  | cons p l ih => rw [List.sum_cons, List.map_cons, List.sum_cons, ← ih]; rfl

theorem sum_snd {A B : Type} [AddCommMonoid A] [AddCommMonoid B] (l : List (A × B)) :
    l.sum.2 = (l.map (·.2)).sum := by
  induction l with
  | nil => rfl
  | cons p l ih => rw [List.sum_cons, List.map_cons, List.sum_cons, ← ih]; rfl

theorem sum_apply {ι A : Type} [AddCommMonoid A] (l : List (ι → A)) (j : ι) :
    l.sum j = (l.map (fun f => f j)).sum := by
  induction l with
  | nil => rfl
  | cons p l ih => rw [List.sum_cons, List.map_cons, List.sum_cons, ← ih]; rfl

theorem sum_coe_withTop {A : Type} [AddCommMonoid A] (l : List A) :
    (l.map (WithTop.some : A → WithTop A)).sum = WithTop.some l.sum := by
  induction l with
  | nil => rfl
  | cons p l ih => rw [List.map_cons, List.sum_cons, ih, List.sum_cons]; rfl

theorem sum_top {A : Type} [AddCommMonoid A] (l : List (WithTop A)) (h : (⊤ : WithTop A) ∈ l) :
    l.sum = ⊤ := by
  induction l with
  | nil => simp at h
  | cons p l ih =>
    rw [List.sum_cons]
    rcases List.mem_cons.mp h with rfl | h
    · exact WithTop.top_add _
    · rw [ih h]; exact WithTop.add_top _

end HBT
