import Verif.Model.ThreadsCentrals
import Verif.Model.Main
import Verif.Lemmas.Tickets
import Verif.Lemmas.ThreadsMerge
import Verif.Props.Centrals
/-!
# Helper lemmas: the programs of `DecideCentrals` and `FeedCentrals`
-/
namespace HBT.Threads
open HBT HBT.Model HBT.Props
variable {K D C R α β : Type}

section Generic
variable {L : Type} {V : L → Type} [DecidableEq L]

/-- Accesses: reads in `R` or `W`, writes in `W`. -/
def footOf (R W : L → Prop) : Access L V → Prop
  | .read ℓ => R ℓ ∨ W ℓ
  | .write ℓ _ => W ℓ
  | .fetch _ => False

theorem clear_footOf {R1 W1 R2 W2 : L → Prop} (h1 : ∀ ℓ, W1 ℓ → ¬ R2 ℓ ∧ ¬ W2 ℓ) (h2 : ∀ ℓ, W2 ℓ → ¬ R1 ℓ) :
    Clear Races (footOf R1 W1 : Access L V → Prop) (footOf R2 W2) := by
  have key : ∀ a b : Access L V, footOf R1 W1 a → footOf R2 W2 b → a.loc = b.loc → (∃ ℓ, a = .read ℓ) ∧ ∃ ℓ, b = .read ℓ := by
    intro a b ha hb e
    cases a with
    | fetch ℓ => cases ha
    | read ℓ =>
      refine ⟨⟨ℓ, rfl⟩, ?_⟩
      cases b with
      | fetch ℓ' => cases hb
      | read ℓ' => exact ⟨ℓ', rfl⟩
      | write ℓ' v =>
        cases (show ℓ = ℓ' from e)
        rcases ha with ha | ha
        · exact absurd ha (h2 _ hb)
        · exact absurd hb (h1 _ ha).2
    | write ℓ v =>
      exfalso
      cases b with
      | fetch ℓ' => cases hb
      | read ℓ' =>
        cases (show ℓ = ℓ' from e)
        rcases hb with hb | hb
        · exact (h1 _ ha).1 hb
        · exact (h1 _ ha).2 hb
      | write ℓ' v' =>
        cases (show ℓ = ℓ' from e)
        exact (h1 _ ha).2 hb
  have loc_of : ∀ a b : Access L V, Races a b → a.loc = b.loc := by
    intro a b h
    cases a <;> cases b <;> first | exact h | cases h
  intro a b ha hb
  refine ⟨?_, ?_, ?_⟩
  · intro h
    obtain ⟨⟨ℓ, rfl⟩, ℓ', rfl⟩ := key a b ha hb h.1
    exact h.2.1 ⟨_, _, rfl, rfl⟩
  · intro h
    obtain ⟨⟨ℓ, rfl⟩, ℓ', rfl⟩ := key a b ha hb (loc_of a b h)
    exact h
  · intro h
    obtain ⟨⟨ℓ, rfl⟩, ℓ', rfl⟩ := key a b ha hb (loc_of b a h).symm
    exact h

/-- The program does not draw from `c`. -/
def Plain (c : L) : Prog L V α → Prop
  | .ret _ => True
  | .fail => True
  | .read _ k => ∀ x, Plain c (k x)
  | .write _ _ k => Plain c k
  | .fetch ℓ _ k => ℓ ≠ c ∧ ∀ x, Plain c (k x)

theorem plain_bind {c : L} : ∀ {p : Prog L V α} {f : α → Prog L V β}, Plain c p → (∀ a, Plain c (f a)) → Plain c (p >>= f) := by
  intro p f hp hf
  rw [bind_eq]
  induction p with
  | ret a => exact hf a
  | fail => trivial
  | read ℓ k ih => exact fun x => ih x (hp x)
  | write ℓ v k ih => exact ih hp
  | fetch ℓ g k ih => exact ⟨hp.1, fun x => ih x (hp.2 x)⟩

theorem plain_load (c ℓ : L) : Plain c (load ℓ : Prog L V (V ℓ)) := fun _ => trivial
theorem plain_store (c ℓ : L) (v : V ℓ) : Plain c (store ℓ v : Prog L V Unit) := trivial

theorem plain_resolve {c : L} {v : V c} : ∀ {p : Prog L V α}, Plain c p → resolve c v p = p := by
  intro p hp
  induction p with
  | ret a => rfl
  | fail => rfl
  | read ℓ k ih => rw [resolve]; congr 1; funext x; exact ih x (hp x)
  | write ℓ w k ih => rw [resolve, ih hp]
  | fetch ℓ g k ih => rw [resolve_other (Ne.symm hp.1)]; congr 1; funext x; exact ih x (hp.2 x)

theorem plain_tickets {c : L} {v : V c} : ∀ {p : Prog L V α} (m : Mem L V), Plain c p → tickets c v p m = [] := by
  intro p
  induction p with
  | ret a => intro m _; rfl
  | fail => intro m _; rfl
  | read ℓ k ih =>
    intro m hp
    rw [tickets]
    cases m ℓ with
    | none => rfl
    | some x => exact ih x m (hp x)
  | write ℓ w k ih =>
    intro m hp
    rw [tickets]
    cases m ℓ with
    | none => rfl
    | some x => exact ih _ hp
  | fetch ℓ g k ih =>
    intro m hp
    rw [tickets_other (Ne.symm hp.1)]
    cases m ℓ with
    | none => rfl
    | some x => exact ih x _ (hp.2 x)

end Generic

/-! ## The memory -/

variable {A : Access CLoc (CLoc.Val K D C) → Prop}

theorem does_rdC {w : CWorld K D C} {i : Nat} {s : Sub K D} (h : w.subs[i]? = some s) {f : Field} (hA : A (.read (.sub i f))) :
    Does A (rdC i f) (memC w) (f.get s) (memC w) := Does.load (by simp [memC, h]) hA

theorem memC_put {w : CWorld K D C} {i : Nat} {s : Sub K D} (h : w.subs[i]? = some s) (f : Field) (v : f.Val K D) :
    Function.update (memC w) (.sub i f) (some v) = memC { w with subs := w.subs.set i (f.put v s) } := by
  have hi := (List.getElem?_eq_some_iff.1 h).1
  funext ℓ
  by_cases e : ℓ = .sub i f
  · subst e
    rw [Function.update_self]
    simp [memC, hi, Field.get_put]
  · rw [Function.update_of_ne e]
    cases ℓ with
    | sub j g =>
      by_cases hj : j = i
      · subst hj
        have hg : g ≠ f := fun hg => e (by rw [hg])
        simp [memC, hi, Field.get_put_ne hg, h]
        rw [List.getElem?_eq_getElem hi] at h
        cases h; rfl
      · simp [memC, List.getElem?_set_ne (Ne.symm hj)]
    | _ => rfl

theorem does_wrC {w : CWorld K D C} {i : Nat} {s : Sub K D} (h : w.subs[i]? = some s) {f : Field} (v : f.Val K D)
    (hA : A (.write (.sub i f) v)) : Does A (wrC i f v) (memC w) () (memC { w with subs := w.subs.set i (f.put v s) }) := by
  have := Does.store (A := A) (m := memC w) (ℓ := .sub i f) (old := f.get s) v (by simp [memC, h]) hA
  rw [memC_put h] at this
  exact this

theorem does_groupC {w : CWorld K D C} {h : Nat} (v : List Nat) (hl : h < w.groups.length) (hA : A (.write (.group h) v)) :
    Does A (store (CLoc.group h) v) (memC w) () (memC { w with groups := w.groups.set h v }) := by
  have := Does.store (A := A) (m := memC w) (ℓ := .group h) (old := w.groups[h]) v (by simp [memC, hl]) hA
  suffices hs : Function.update (memC w) (.group h) (some v) = memC { w with groups := w.groups.set h v } by rw [hs] at this; exact this
  funext ℓ
  by_cases e : ℓ = .group h
  · subst e
    rw [Function.update_self]
    simp [memC, hl]
  · rw [Function.update_of_ne e]
    cases ℓ with
    | group j =>
      have hj : j ≠ h := fun hj => e (by rw [hj])
      simp [memC, List.getElem?_set_ne (Ne.symm hj)]
    | _ => rfl

theorem does_haloC {w : CWorld K D C} {h : Nat} (v : List (Particle D)) (hl : h < w.halos.length) (hA : A (.write (.halo h) v)) :
    Does A (store (CLoc.halo h) v) (memC w) () (memC { w with halos := w.halos.set h v }) := by
  have := Does.store (A := A) (m := memC w) (ℓ := .halo h) (old := w.halos[h]) v (by simp [memC, hl]) hA
  suffices hs : Function.update (memC w) (.halo h) (some v) = memC { w with halos := w.halos.set h v } by rw [hs] at this; exact this
  funext ℓ
  by_cases e : ℓ = .halo h
  · subst e
    rw [Function.update_self]
    simp [memC, hl]
  · rw [Function.update_of_ne e]
    cases ℓ with
    | halo j =>
      have hj : j ≠ h := fun hj => e (by rw [hj])
      simp [memC, List.getElem?_set_ne (Ne.symm hj)]
    | _ => rfl

theorem does_centreC {w : CWorld K D C} {h : Nat} (v : C) (hl : h < w.centres.length) (hA : A (.write (.centre h) v)) :
    Does A (store (CLoc.centre h) v) (memC w) () (memC { w with centres := w.centres.set h v }) := by
  have := Does.store (A := A) (m := memC w) (ℓ := .centre h) (old := w.centres[h]) v (by simp [memC, hl]) hA
  suffices hs : Function.update (memC w) (.centre h) (some v) = memC { w with centres := w.centres.set h v } by rw [hs] at this; exact this
  funext ℓ
  by_cases e : ℓ = .centre h
  · subst e
    rw [Function.update_self]
    simp [memC, hl]
  · rw [Function.update_of_ne e]
    cases ℓ with
    | centre j =>
      have hj : j ≠ h := fun hj => e (by rw [hj])
      simp [memC, List.getElem?_set_ne (Ne.symm hj)]
    | _ => rfl

theorem memC_npro (w : CWorld K D C) (n : Nat) : Function.update (memC w) .npro (some n) = memC { w with npro := n } := by
  funext ℓ
  by_cases e : ℓ = .npro
  · subst e; rw [Function.update_self]; rfl
  · rw [Function.update_of_ne e]
    cases ℓ with
    | npro => exact absurd rfl e
    | _ => rfl

/-! ## `DecideCentrals` -/

theorem major_does [LT K] [DecidableLT K] {w : CWorld K D C} {limit : K} : ∀ (is : List Nat) (ms : List K) (n : Nat), readAll Sub.mbound w.subs is = .ok ms →
    (∀ i ∈ is, A (.read (.sub i .mbound))) → Does A (majorP limit is n) (memC w) (countMajor limit ms n) (memC w) := by
  intro is
  induction is with
  | nil => intro ms n h _; cases h; exact Does.pure _ _ _
  | cons i is ih =>
    intro ms n h hA
    rw [readAll] at h
    obtain ⟨s, h1, h⟩ := bind_eq_ok h
    obtain ⟨rest, h2, h⟩ := bind_eq_ok h
    cases h
    refine Does.bind (does_rdC (get_ok h1) (hA i List.mem_cons_self)) ?_
    rw [countMajor]
    by_cases hlt : s.mbound < limit
    · rw [if_pos hlt, if_pos (show Field.get .mbound s < limit from hlt)]; exact Does.pure _ _ _
    · rw [if_neg hlt, if_neg (show ¬ Field.get .mbound s < limit from hlt)]
      exact ih rest (n + 1) h2 (fun j hj => hA j (List.mem_cons_of_mem _ hj))

theorem distance_does {dist : C → C → R} {w : CWorld K D C} {h i : Nat} {x y : C} (hx : w.haloCentres[h]? = some x) (hy : w.centres[i]? = some y)
    (h1 : A (.read (.centre i))) (h2 : A (.read (.haloCentre h))) : Does A (distanceP dist h i) (memC w) (dist x y) (memC w) :=
  Does.bind (Does.load (ℓ := CLoc.centre i) (m := memC w) hy h1) (Does.bind (Does.load (ℓ := CLoc.haloCentre h) (m := memC w) hx h2) (Does.pure _ _ _))

theorem closest_does [LT R] [DecidableLT R] {dist : C → C → R} {w : CWorld K D C} {h : Nat} {x : C} (hx : w.haloCentres[h]? = some x) {d : Nat → R}
    (hd : ∀ i y, w.centres[i]? = some y → d i = dist x y) (h2 : A (.read (.haloCentre h))) : ∀ (is : List Nat) (n : Nat) (dmin : R) (ic : Nat),
    (∀ i ∈ is, i < w.centres.length ∧ A (.read (.centre i))) → Does A (closestP dist h is n dmin ic) (memC w) (closest (is.map d) n dmin ic) (memC w) := by
  intro is
  induction is with
  | nil => intro n dmin ic _; exact Does.pure _ _ _
  | cons i is ih =>
    intro n dmin ic hA
    obtain ⟨hi, hA1⟩ := hA i List.mem_cons_self
    have hy : w.centres[i]? = some w.centres[i] := List.getElem?_eq_getElem hi
    refine Does.bind (distance_does hx hy hA1 h2) ?_
    rw [List.map_cons, closest, hd i _ hy]
    by_cases hlt : dist x w.centres[i] < dmin
    · rw [if_pos hlt, if_pos hlt]
      exact ih _ _ _ (fun j hj => hA j (List.mem_cons_of_mem _ hj))
    · rw [if_neg hlt, if_neg hlt]
      exact ih _ _ _ (fun j hj => hA j (List.mem_cons_of_mem _ hj))

theorem readAll_lt {γ δ : Type} {f : γ → δ} {v : List γ} : ∀ (is : List Nat) (ms : List δ), readAll f v is = .ok ms → ms.length = is.length ∧ ∀ i ∈ is, i < v.length := by
  intro is
  induction is with
  | nil => intro ms h; cases h; exact ⟨rfl, fun i hi => by cases hi⟩
  | cons i is ih =>
    intro ms h
    rw [readAll] at h
    obtain ⟨s, h1, h⟩ := bind_eq_ok h
    obtain ⟨rest, h2, h⟩ := bind_eq_ok h
    cases h
    obtain ⟨e, hl⟩ := ih rest h2
    refine ⟨by rw [List.length_cons, List.length_cons, e], fun j hj => ?_⟩
    rcases List.mem_cons.1 hj with rfl | hj
    · exact (List.getElem?_eq_some_iff.1 (get_ok h1)).1
    · exact hl j hj

theorem countMajor_ge [LT K] [DecidableLT K] (limit : K) : ∀ (ms : List K) (n : Nat), n ≤ countMajor limit ms n := by
  intro ms
  induction ms with
  | nil => intro n; exact le_refl _
  | cons m ms ih =>
    intro n
    rw [countMajor]
    split
    · exact le_refl _
    · exact le_trans (Nat.le_succ n) (ih (n + 1))

theorem decide_does [Mul K] [LT K] [DecidableLT K] [LT R] [DecidableLT R] {ratio : K} {dist : C → C → R} {w : CWorld K D C} {h : Nat} {x : C}
    (hx : w.haloCentres[h]? = some x) {d : Nat → R} (hd : ∀ i y, w.centres[i]? = some y → d i = dist x y) (hlen : w.centres.length = w.subs.length)
    {g g' : List Nat} (hg : w.groups[h]? = some g) (hrun : decideCentral ratio d w.subs g = .ok g')
    (hR : ∀ ℓ, (∃ i f, ℓ = .sub i f) ∨ (∃ i, ℓ = .centre i) ∨ (∃ i, ℓ = .haloCentre i) ∨ ℓ = .group h → A (.read ℓ)) (hW : ∀ v, A (.write (.group h) v)) :
    Does A (decideP ratio dist h) (memC w) () (memC { w with groups := w.groups.set h g' }) := by
  have hl := (List.getElem?_eq_some_iff.1 hg).1
  have hsame : ({ w with groups := w.groups.set h g } : CWorld K D C) = w := by
    have : w.groups.set h g = w.groups := by
      apply List.ext_getElem?
      intro j
      by_cases hj : h = j
      · subst hj; rw [List.getElem?_set_self hl, hg]
      · rw [List.getElem?_set_ne hj]
    rw [this]
  refine Does.bind (Does.load (ℓ := CLoc.group h) (m := memC w) hg (hR _ (Or.inr (Or.inr (Or.inr rfl))))) ?_
  rw [decideCentral] at hrun
  match g, hg, hsame, hrun with
  | [], hg, hsame, hrun =>
    simp only [List.length_nil, Nat.not_lt_zero, if_false] at hrun
    cases hrun
    rw [hsame]
    exact Does.pure _ _ _
  | [a], hg, hsame, hrun =>
    simp only [List.length_singleton, lt_irrefl, if_false] at hrun
    cases hrun
    rw [hsame]
    exact Does.pure _ _ _
  | a :: b :: rest, hg, hsame, hrun =>
    rw [if_pos (by simp)] at hrun
    obtain ⟨ms, h1, hrun⟩ := bind_eq_ok hrun
    obtain ⟨m0, h2, hrun⟩ := bind_eq_ok hrun
    have hlt := (readAll_lt _ _ h1).2
    have h1' := h1
    rw [readAll] at h1
    obtain ⟨s, h3, h1⟩ := bind_eq_ok h1
    obtain ⟨ms', h4, h1⟩ := bind_eq_ok h1
    cases h1
    have hm0 : m0 = s.mbound := by
      have := get_ok h2
      simp at this
      exact this.symm
    subst hm0
    rw [List.tail_cons] at hrun
    refine Does.bind (does_rdC (get_ok h3) (hR _ (Or.inl ⟨_, _, rfl⟩))) ?_
    refine Does.bind (major_does _ ms' 1 h4 (fun i _ => hR _ (Or.inl ⟨_, _, rfl⟩))) ?_
    obtain ⟨n, hn⟩ : ∃ n, n = countMajor (s.mbound * ratio) ms' 1 := ⟨_, rfl⟩
    rw [← hn] at hrun
    rw [show countMajor (Field.get .mbound s * ratio) ms' 1 = n from hn.symm]
    by_cases h1n : 1 < n
    · rw [if_pos h1n] at hrun
      rw [if_pos h1n]
      have htake : (a :: b :: rest).take n = a :: (b :: rest).take (n - 1) := by
        obtain ⟨k, rfl⟩ : ∃ k, n = k + 1 := ⟨n - 1, by omega⟩
        rw [List.take_succ_cons]; rfl
      rw [htake, List.map_cons] at hrun
      simp only at hrun
      have hya : w.centres[a]? = some (w.centres[a]'(by rw [hlen]; exact hlt a (by simp))) := List.getElem?_eq_getElem _
      refine Does.bind (distance_does hx hya (hR _ (Or.inr (Or.inl ⟨_, rfl⟩))) (hR _ (Or.inr (Or.inr (Or.inl ⟨_, rfl⟩))))) ?_
      rw [← hd a _ hya]
      refine Does.bind (closest_does hx hd (hR _ (Or.inr (Or.inr (Or.inl ⟨_, rfl⟩)))) _ 1 (d a) 0
        (fun i hi => ⟨by rw [hlen]; exact hlt i (List.mem_cons_of_mem _ (List.mem_of_mem_take hi)), hR _ (Or.inr (Or.inl ⟨_, rfl⟩))⟩)) ?_
      by_cases hic : closest (((b :: rest).take (n - 1)).map d) 1 (d a) 0 ≠ 0
      · rw [if_pos hic] at hrun
        rw [if_pos hic, hrun]
        exact Does.bind (Does.ret _ _ _) (does_groupC g' hl (hW g'))
      · rw [if_neg hic] at hrun
        rw [if_neg hic]
        cases hrun
        rw [hsame]
        exact Does.pure _ _ _
    · rw [if_neg h1n] at hrun
      rw [if_neg h1n]
      cases hrun
      rw [hsame]
      exact Does.pure _ _ _

theorem decideCentrals_get [Mul K] [LT K] [DecidableLT K] [LT R] [DecidableLT R] {ratio : K} {d : Nat → Nat → R} {subs : List (Sub K D)} :
    ∀ (gs gs' : List (List Nat)) (h : Nat), decideCentrals ratio d subs gs h = .ok gs' → gs'.length = gs.length ∧
      ∀ (j : Nat) (g g' : List Nat), gs[j]? = some g → gs'[j]? = some g' → decideCentral ratio (d (h + j)) subs g = .ok g' := by
  intro gs
  induction gs with
  | nil => intro gs' h e; cases e; exact ⟨rfl, fun j g g' hj => by simp at hj⟩
  | cons g gs ih =>
    intro gs' h e
    rw [decideCentrals] at e
    obtain ⟨x, h1, e⟩ := bind_eq_ok e
    obtain ⟨y, h2, e⟩ := bind_eq_ok e
    cases e
    obtain ⟨e1, e2⟩ := ih y (h + 1) h2
    refine ⟨by rw [List.length_cons, List.length_cons, e1], fun j a a' ha ha' => ?_⟩
    cases j with
    | zero => simp at ha ha'; subst ha; subst ha'; exact h1
    | succ j =>
      rw [List.getElem?_cons_succ] at ha ha'
      have := e2 j a a' ha ha'
      rwa [show h + 1 + j = h + (j + 1) by omega] at this

/-- The loop of `DecideCentrals`. -/
theorem decide_completes [Mul K] [LT K] [DecidableLT K] [LT R] [DecidableLT R] {ratio : K} {dist : C → C → R} {w : CWorld K D C}
    (hhc : w.haloCentres.length = w.groups.length) (hlen : w.centres.length = w.subs.length) {d : Nat → Nat → R}
    (hd : ∀ h i x y, w.haloCentres[h]? = some x → w.centres[i]? = some y → d h i = dist x y) {groups : List (List Nat)}
    (hrun : decideCentrals ratio d w.subs w.groups 0 = .ok groups) :
    Completes Races [decidePhase ratio dist w.groups.length] (memC w) (memC { w with groups := groups }) := by
  obtain ⟨hl, hget⟩ := decideCentrals_get _ _ _ hrun
  obtain ⟨l, e, h1, h2⟩ := runAll_set (fun i => (groups[i]?).getD []) (List.range w.groups.length) w.groups
    (fun i hi => List.mem_range.1 hi)
  have hle : l = groups := by
    apply List.ext_getElem?
    intro i
    by_cases hi : i < w.groups.length
    · rw [(h2 i (by omega)).1 (List.mem_range.2 hi), List.getElem?_eq_getElem (by omega)]
      rfl
    · rw [List.getElem?_eq_none (by omega), List.getElem?_eq_none (by omega)]
  subst hle
  refine loop_completes (σ := List (List Nat)) (st := w.groups) (fun x => memC { w with groups := x }) _ (decideP ratio dist)
    (fun i => footOf (fun ℓ => (∃ i f, ℓ = .sub i f) ∨ (∃ i, ℓ = .centre i) ∨ ∃ i, ℓ = .haloCentre i) (fun ℓ => ℓ = .group i))
    (fun i x => x[i]? = w.groups[i]?) List.nodup_range (List.Perm.refl _) ?_ ?_ ?_ (fun _ _ => rfl) e
  · rintro i _ j _ hne
    refine clear_footOf ?_ ?_
    · rintro ℓ rfl
      refine ⟨?_, ?_⟩
      · rintro (⟨_, _, e⟩ | ⟨_, e⟩ | ⟨_, e⟩) <;> cases e
      · intro e; cases e; exact hne rfl
    · rintro ℓ rfl
      rintro (⟨_, _, e⟩ | ⟨_, e⟩ | ⟨_, e⟩) <;> cases e
  · intro i hi x x' hpre hf
    obtain ⟨hil, rfl⟩ := set_ok hf
    have hi' := List.mem_range.1 hi
    have hg : w.groups[i]? = some w.groups[i] := List.getElem?_eq_getElem hi'
    have e1 : (l[i]?).getD [] = l[i]'(by omega) := by rw [List.getElem?_eq_getElem (by omega)]; rfl
    have hdec := hget i w.groups[i] (l[i]'(by omega)) hg (List.getElem?_eq_getElem _)
    rw [Nat.zero_add] at hdec
    have hx : w.haloCentres[i]? = some (w.haloCentres[i]'(by omega)) := List.getElem?_eq_getElem _
    have := decide_does (A := footOf (fun ℓ => (∃ i f, ℓ = .sub i f) ∨ (∃ i, ℓ = .centre i) ∨ ∃ i, ℓ = .haloCentre i) (fun ℓ => ℓ = .group i))
      (dist := dist) (w := { w with groups := x }) (h := i) (x := w.haloCentres[i]'(by omega)) hx (d := d i)
      (fun j y hy => hd i j _ y hx hy) hlen (g := w.groups[i]) (by simp only [hpre, hg]) hdec (by
        rintro ℓ (h | h | h | h)
        · exact Or.inl (Or.inl h)
        · exact Or.inl (Or.inr (Or.inl h))
        · exact Or.inl (Or.inr (Or.inr h))
        · exact Or.inr h) (fun v => rfl)
    rw [e1]
    exact this
  · intro i _ j _ hne x x' _ hj hf
    obtain ⟨_, rfl⟩ := set_ok hf
    rw [List.getElem?_set_ne hne]; exact hj

/-! ## `FeedCentrals` -/

/-- What an iteration does when the index of a new subhalo is given. -/
def feedStep (snap : Int) (tk : Nat → Nat) (h : Nat) (w : CWorld K D C) : Outcome (CWorld K D C) := do
  let members ← Outcome.get w.groups h
  match members with
  | [] => do
    let central ← Outcome.get w.subs (tk h)
    let host ← Outcome.get w.halos h
    let x ← Outcome.get w.haloCentres h
    let subs ← Outcome.set w.subs (tk h) { central with hostHaloId := h, particles := host, nbound := host.length, snapBirth := snap }
    let halos ← Outcome.set w.halos h central.particles
    let centres ← Outcome.set w.centres (tk h) x
    .ok { w with subs := subs, halos := halos, centres := centres }
  | c :: _ => do
    let st ← feedCentral h c ⟨w.npro, w.subs, w.halos⟩
    .ok { w with subs := st.subs, halos := st.halos }

/-- The program with the index given. -/
def feedR (snap : Int) (tk h : Nat) : CProg K D C Unit := do
  let members ← load (CLoc.group h)
  match members with
  | [] => bornP snap h tk
  | c :: _ => feedCentralP h c

theorem plain_lift (o : Outcome α) : Plain CLoc.npro (liftC o : CProg K D C α) := by
  cases o <;> trivial

theorem born_plain (snap : Int) (h i : Nat) : Plain CLoc.npro (bornP snap h i : CProg K D C Unit) := by
  unfold bornP rdC wrC
  exact plain_bind (plain_store _ _ _) fun _ => plain_bind (plain_load _ _) fun _ => plain_bind (plain_store _ _ _) fun _ =>
    plain_bind (plain_load _ _) fun _ => plain_bind (plain_load _ _) fun _ => plain_bind (plain_store _ _ _) fun _ =>
    plain_bind (plain_store _ _ _) fun _ => plain_bind (plain_load _ _) fun _ => plain_bind (plain_store _ _ _) fun _ => plain_store _ _ _

theorem feed_plain (h c : Nat) : Plain CLoc.npro (feedCentralP h c : CProg K D C Unit) := by
  unfold feedCentralP rdC wrC
  refine plain_bind (plain_load _ _) fun own => ?_
  split
  · trivial
  · exact plain_bind (plain_load _ _) fun _ => plain_bind (plain_store _ _ _) fun _ => plain_bind (plain_store _ _ _) fun _ =>
      plain_bind (plain_load _ _) fun _ => plain_bind (plain_store _ _ _) fun _ => plain_bind (plain_load _ _) fun _ =>
      plain_bind (plain_lift _) fun _ => plain_bind (plain_load _ _) fun _ => plain_bind (plain_lift _) fun _ => plain_store _ _ _

theorem resolve_feed (snap : Int) (tk h : Nat) : resolve CLoc.npro tk (feedP snap h : CProg K D C Unit) = feedR snap tk h := by
  show resolve (V := CLoc.Val K D C) CLoc.npro tk (.read (CLoc.group h) _) = Prog.read (CLoc.group h) _
  rw [resolve]
  congr 1
  funext members
  cases members with
  | nil =>
    show resolve (V := CLoc.Val K D C) CLoc.npro tk (.fetch CLoc.npro Nat.succ (bornP snap h)) = bornP snap h tk
    rw [resolve_fetch, plain_resolve (born_plain snap h tk)]
  | cons c tl => exact plain_resolve (feed_plain h c)

theorem tickets_feed (snap : Int) (tk h : Nat) {w : CWorld K D C} {g : List Nat} (hg : w.groups[h]? = some g) :
    tickets CLoc.npro tk (feedP snap h : CProg K D C Unit) (memC w) = if g = [] then [Nat.succ] else [] := by
  show tickets (V := CLoc.Val K D C) CLoc.npro tk (.read (CLoc.group h) _) (memC w) = _
  rw [tickets, show memC w (CLoc.group h) = some g from hg]
  cases g with
  | nil =>
    rw [if_pos rfl]
    show tickets (V := CLoc.Val K D C) CLoc.npro tk (.fetch CLoc.npro Nat.succ (bornP snap h)) (memC w) = _
    rw [tickets_fetch, plain_tickets _ (born_plain snap h tk)]
  | cons c tl =>
    rw [if_neg (by simp)]
    exact plain_tickets _ (feed_plain h c)

/-- The subhalo that the iteration `h` works on. -/
def ownSub (groups : List (List Nat)) (tk : Nat → Nat) (h : Nat) : Nat :=
  match groups[h]? with
  | some (c :: _) => c
  | _ => tk h

/-- The accesses of iteration `h`. -/
def feedFoot (groups : List (List Nat)) (tk : Nat → Nat) (h : Nat) : Access CLoc (CLoc.Val K D C) → Prop :=
  footOf (fun ℓ => ℓ = .group h ∨ ℓ = .haloCentre h)
    (fun ℓ => ℓ = .halo h ∨ (∃ f, ℓ = .sub (ownSub groups tk h) f) ∨ ℓ = .centre (ownSub groups tk h))

theorem feedR_does {snap : Int} {tk : Nat → Nat} {h : Nat} {w w' : CWorld K D C} (hrun : feedStep snap tk h w = .ok w') :
    Does (feedFoot w.groups tk h) (feedR snap (tk h) h) (memC w) () (memC w') := by
  rw [feedStep] at hrun
  obtain ⟨g, hg, hrun⟩ := bind_eq_ok hrun
  have hg' := get_ok hg
  refine Does.bind (Does.load (ℓ := CLoc.group h) (m := memC w) hg' (Or.inl (Or.inl rfl))) ?_
  cases g with
  | nil =>
    simp only at hrun ⊢
    have hown : ownSub w.groups tk h = tk h := by rw [ownSub, hg']
    obtain ⟨i, hi⟩ : ∃ i, i = tk h := ⟨_, rfl⟩
    rw [← hi] at hrun hown ⊢
    obtain ⟨s, h1, hrun⟩ := bind_eq_ok hrun
    obtain ⟨host, h2, hrun⟩ := bind_eq_ok hrun
    obtain ⟨x, h3, hrun⟩ := bind_eq_ok hrun
    obtain ⟨subs, h4, hrun⟩ := bind_eq_ok hrun
    obtain ⟨halos, h5, hrun⟩ := bind_eq_ok hrun
    obtain ⟨centres, h6, hrun⟩ := bind_eq_ok hrun
    obtain ⟨hil, rfl⟩ := set_ok h4
    obtain ⟨hhl, rfl⟩ := set_ok h5
    obtain ⟨hcl, rfl⟩ := set_ok h6
    cases hrun
    have rS : ∀ f, feedFoot w.groups tk h (.read (.sub i f) : Access CLoc (CLoc.Val K D C)) := fun f => Or.inr (Or.inr (Or.inl ⟨f, by rw [hown]⟩))
    have wS : ∀ f (v : Field.Val K D f), feedFoot w.groups tk h (.write (.sub i f) v : Access CLoc (CLoc.Val K D C)) :=
      fun f v => Or.inr (Or.inl ⟨f, by rw [hown]⟩)
    have wC : ∀ v, feedFoot w.groups tk h (.write (.centre i) v : Access CLoc (CLoc.Val K D C)) :=
      fun v => Or.inr (Or.inr (by rw [hown]))
    have wH : ∀ v, feedFoot w.groups tk h (.write (.halo h) v : Access CLoc (CLoc.Val K D C)) := fun v => Or.inl rfl
    unfold bornP
    refine Does.bind (does_wrC (get_ok h1) (f := .hostHaloId) (h : Int) (wS _ _)) ?_
    refine Does.bind (Does.load (ℓ := CLoc.haloCentre h) (get_ok h3) (Or.inl (Or.inr rfl))) ?_
    refine Does.bind (does_centreC x hcl (wC _)) ?_
    have hs1 : (w.subs.set i (Field.put .hostHaloId (h : Int) s))[i]? = some (Field.put .hostHaloId (h : Int) s) := List.getElem?_set_self hil
    refine Does.bind (does_rdC hs1 (f := .particles) (rS _)) ?_
    refine Does.bind (Does.load (ℓ := CLoc.halo h) (get_ok h2) (Or.inr (Or.inl rfl))) ?_
    refine Does.bind (does_wrC hs1 (f := .particles) host (wS _ _)) ?_
    refine Does.bind (does_haloC _ hhl (wH _)) ?_
    simp only [List.set_set]
    have hs2 : (w.subs.set i (Field.put .particles host (Field.put .hostHaloId (h : Int) s)))[i]? =
        some (Field.put .particles host (Field.put .hostHaloId (h : Int) s)) := List.getElem?_set_self hil
    refine Does.bind (does_rdC hs2 (f := .particles) (rS _)) ?_
    refine Does.bind (does_wrC hs2 (f := .nbound) _ (wS _ _)) ?_
    simp only [List.set_set]
    have last := does_wrC (A := feedFoot w.groups tk h) (w := { w with subs := w.subs.set i (Field.put .nbound host.length (Field.put .particles host (Field.put .hostHaloId (h : Int) s))), centres := w.centres.set i x, halos := w.halos.set h s.particles }) (i := i) (List.getElem?_set_self hil) (f := .snapBirth) snap (wS _ _)
    simp only [List.set_set] at last
    exact last
  | cons c tl =>
    simp only at hrun ⊢
    have hown : ownSub w.groups tk h = c := by rw [ownSub, hg']
    obtain ⟨st, hst, hrun⟩ := bind_eq_ok hrun
    cases hrun
    rw [feedCentral] at hst
    obtain ⟨s, h1, hst⟩ := bind_eq_ok hst
    obtain ⟨host, h2, hst⟩ := bind_eq_ok hst
    obtain ⟨_, h3, hst⟩ := bind_eq_ok hst
    obtain ⟨most, h4, hst⟩ := bind_eq_ok hst
    obtain ⟨ps, h5, hst⟩ := bind_eq_ok hst
    obtain ⟨subs, h6, hst⟩ := bind_eq_ok hst
    obtain ⟨halos, h7, hst⟩ := bind_eq_ok hst
    obtain ⟨hcl, rfl⟩ := set_ok h6
    obtain ⟨hhl, rfl⟩ := set_ok h7
    cases hst
    simp only at *
    have rS : ∀ f, feedFoot w.groups tk h (.read (.sub c f) : Access CLoc (CLoc.Val K D C)) := fun f => Or.inr (Or.inr (Or.inl ⟨f, by rw [hown]⟩))
    have wS : ∀ f (v : Field.Val K D f), feedFoot w.groups tk h (.write (.sub c f) v : Access CLoc (CLoc.Val K D C)) :=
      fun f v => Or.inr (Or.inl ⟨f, by rw [hown]⟩)
    have rH : feedFoot w.groups tk h (.read (.halo h) : Access CLoc (CLoc.Val K D C)) := Or.inr (Or.inl rfl)
    have wH : ∀ v, feedFoot w.groups tk h (.write (.halo h) v : Access CLoc (CLoc.Val K D C)) := fun v => Or.inl rfl
    have hne : s.particles.length ≠ 0 := by
      intro e
      have := get_ok h4
      rw [List.length_eq_zero_iff.1 e] at this
      simp at this
    unfold feedCentralP
    refine Does.bind (does_rdC (get_ok h1) (f := .particles) (rS _)) ?_
    rw [if_neg (show ¬ (Field.get .particles s).length = 0 from hne)]
    refine Does.bind (Does.load (ℓ := CLoc.halo h) (get_ok h2) rH) ?_
    refine Does.bind (does_wrC (get_ok h1) (f := .particles) host (wS _ _)) ?_
    refine Does.bind (does_haloC _ hhl (wH _)) ?_
    have hs1 : (w.subs.set c (Field.put .particles host s))[c]? = some (Field.put .particles host s) := List.getElem?_set_self hcl
    refine Does.bind (does_rdC hs1 (f := .particles) (rS _)) ?_
    refine Does.bind (does_wrC hs1 (f := .nbound) _ (wS _ _)) ?_
    simp only [List.set_set]
    refine Does.bind (Does.load (ℓ := CLoc.halo h) (v := s.particles) (show (w.halos.set h s.particles)[h]? = _ from List.getElem?_set_self hhl) rH) ?_
    rw [h4]
    refine Does.bind (Does.ret _ _ _) ?_
    have hs2 : (w.subs.set c (Field.put .nbound host.length (Field.put .particles host s)))[c]? =
        some (Field.put .nbound host.length (Field.put .particles host s)) := List.getElem?_set_self hcl
    refine Does.bind (does_rdC hs2 (f := .particles) (rS _)) ?_
    rw [show liftC (promote most.id (Field.get .particles (Field.put .nbound host.length (Field.put .particles host s))).length 0
      (Field.get .particles (Field.put .nbound host.length (Field.put .particles host s)))) = (.ret ps : CProg K D C _) from by
        show liftC (promote most.id host.length 0 host) = _
        rw [h5]; rfl]
    refine Does.bind (Does.ret _ _ _) ?_
    have last := does_wrC (A := feedFoot w.groups tk h) (w := { w with subs := w.subs.set c (Field.put .nbound host.length (Field.put .particles host s)), halos := w.halos.set h s.particles }) (i := c) hs2 (f := .particles) ps (wS _ _)
    simp only [List.set_set] at last
    exact last

theorem feedStep_keeps {snap : Int} {tk : Nat → Nat} {h : Nat} {w w' : CWorld K D C} (hrun : feedStep snap tk h w = .ok w') : w'.groups = w.groups := by
  rw [feedStep] at hrun
  obtain ⟨g, _, hrun⟩ := bind_eq_ok hrun
  cases g with
  | nil =>
    simp only at hrun
    obtain ⟨s, h1, hrun⟩ := bind_eq_ok hrun
    obtain ⟨host, h2, hrun⟩ := bind_eq_ok hrun
    obtain ⟨x, h3, hrun⟩ := bind_eq_ok hrun
    obtain ⟨subs, h4, hrun⟩ := bind_eq_ok hrun
    obtain ⟨halos, h5, hrun⟩ := bind_eq_ok hrun
    obtain ⟨centres, h6, hrun⟩ := bind_eq_ok hrun
    cases hrun; rfl
  | cons c tl =>
    simp only at hrun
    obtain ⟨st, hst, hrun⟩ := bind_eq_ok hrun
    cases hrun; rfl

theorem feedCentral_facts {h c : Nat} {st st' : FeedState K D} (e : feedCentral h c st = .ok st') :
    st'.npro = st.npro ∧ st'.subs.length = st.subs.length ∧ ∀ n, feedCentral h c ⟨n, st.subs, st.halos⟩ = .ok ⟨n, st'.subs, st'.halos⟩ := by
  rw [feedCentral] at e
  obtain ⟨s, h1, e⟩ := bind_eq_ok e
  obtain ⟨host, h2, e⟩ := bind_eq_ok e
  obtain ⟨_, h3, e⟩ := bind_eq_ok e
  obtain ⟨most, h4, e⟩ := bind_eq_ok e
  obtain ⟨ps, h5, e⟩ := bind_eq_ok e
  obtain ⟨subs, h6, e⟩ := bind_eq_ok e
  obtain ⟨halos, h7, e⟩ := bind_eq_ok e
  cases e
  refine ⟨rfl, ?_, fun n => ?_⟩
  · obtain ⟨_, rfl⟩ := set_ok h6
    rw [List.length_set]
  · rw [feedCentral]
    simp only [h1, h2, h3, h4, h5, h6, h7, Outcome.bind_ok]

/-- The new subhaloes have the coordinates of their haloes, the others keep theirs. -/
structure CentresAfter (groups : List (List Nat)) (haloCentres before after : List C) (nold : Nat) (order : List Nat) : Prop where
  len : after.length = before.length
  old : ∀ i, i < nold → after[i]? = before[i]?
  born : ∀ j h, (orphaned groups order)[j]? = some h → after[nold + j]? = haloCentres[h]?

theorem feed_follow {snap : Int} {tk : Nat → Nat} {groups : List (List Nat)} : ∀ (todo : List Nat) (st st' : FeedState K D) (w : CWorld K D C),
    w.groups = groups → w.subs = st.subs → w.halos = st.halos → w.haloCentres.length = groups.length → w.centres.length = w.subs.length →
    (∀ pre h post, todo = pre ++ h :: post → groups[h]? = some [] → tk h = st.npro + (orphaned groups pre).length) →
    feedLoop snap groups todo st = .ok st' →
    ∃ cs, runAll (feedStep snap tk) todo w = .ok { w with subs := st'.subs, halos := st'.halos, centres := cs } ∧
      st'.npro = st.npro + (orphaned groups todo).length ∧ CentresAfter groups w.haloCentres w.centres cs st.npro todo := by
  intro todo
  induction todo with
  | nil =>
    intro st st' w hg hs hh _ _ _ e
    cases e
    refine ⟨w.centres, ?_, rfl, rfl, fun _ _ => rfl, fun j h hj => by simp [orphaned] at hj⟩
    rw [runAll, ← hs, ← hh]
  | cons h todo ih =>
    intro st st' w hg hs hh hhc hlen htk e
    rw [feedLoop] at e
    obtain ⟨st1, e1, e⟩ := bind_eq_ok e
    rw [feedOne] at e1
    obtain ⟨g, h1, e1⟩ := bind_eq_ok e1
    have hg' := get_ok h1
    cases g with
    | nil =>
      simp only at e1
      have ho : ∀ l, orphaned groups (h :: l) = h :: orphaned groups l := fun l => by
        unfold orphaned; rw [List.filter_cons_of_pos (by simp [hg'])]
      have ht : tk h = st.npro := by
        have := htk [] h todo rfl hg'
        simpa [orphaned] using this
      rw [newCentral] at e1
      obtain ⟨s, h2, e1⟩ := bind_eq_ok e1
      obtain ⟨host, h3, e1⟩ := bind_eq_ok e1
      obtain ⟨subs, h4, e1⟩ := bind_eq_ok e1
      obtain ⟨halos, h5, e1⟩ := bind_eq_ok e1
      cases e1
      have hhl : h < groups.length := (List.getElem?_eq_some_iff.1 hg').1
      have hx : Outcome.get w.haloCentres h = .ok (w.haloCentres[h]'(by omega)) := Outcome.get_of_lt _
      have hil : st.npro < w.centres.length := by
        have := (set_ok h4).1
        rw [hlen, hs]; exact this
      have hsl : subs.length = st.subs.length := by
        obtain ⟨_, rfl⟩ := set_ok h4
        rw [List.length_set]
      obtain ⟨cs, i1, i2, i3⟩ := ih ⟨st.npro + 1, subs, halos⟩ st'
        { w with subs := subs, halos := halos, centres := w.centres.set st.npro (w.haloCentres[h]'(by omega)) } hg rfl rfl hhc
        (by rw [List.length_set, hlen, hs, hsl]) (by
          intro pre h' post hp hn
          have := htk (h :: pre) h' post (by rw [hp]; rfl) hn
          rw [ho, List.length_cons] at this
          rw [this]
          simp only
          omega) e
      refine ⟨cs, ?_, ?_, ?_⟩
      · have hstep : feedStep snap tk h w = .ok { w with subs := subs, halos := halos, centres := w.centres.set st.npro (w.haloCentres[h]'(by omega)) } := by
          rw [feedStep, hg, h1, Outcome.bind_ok]
          simp only
          rw [ht, hs, hh, h2, Outcome.bind_ok, h3, Outcome.bind_ok, hx, Outcome.bind_ok, h4, Outcome.bind_ok, h5, Outcome.bind_ok,
            Outcome.set_of_lt hil, Outcome.bind_ok]
        rw [runAll, hstep, Outcome.bind_ok, i1]
      · rw [i2, ho, List.length_cons]; simp only; omega
      · refine ⟨by rw [i3.len, List.length_set], ?_, ?_⟩
        · intro i hi
          have := i3.old i (by simp only; omega)
          rw [this]
          exact List.getElem?_set_ne (by omega)
        · intro j h' hj
          rw [ho] at hj
          cases j with
          | zero =>
            simp only [List.getElem?_cons_zero, Option.some.injEq] at hj
            subst hj
            rw [Nat.add_zero, i3.old st.npro (Nat.lt_succ_self _)]
            simp only
            rw [List.getElem?_set_self hil, List.getElem?_eq_getElem]
          | succ j =>
            rw [List.getElem?_cons_succ] at hj
            have := i3.born j h' hj
            simp only at this
            rw [← this, show st.npro + (j + 1) = st.npro + 1 + j by omega]
    | cons c tl =>
      simp only at e1
      have ho : ∀ l, orphaned groups (h :: l) = orphaned groups l := fun l => by
        unfold orphaned; rw [List.filter_cons_of_neg (by simp [hg'])]
      obtain ⟨f1, f2, f3⟩ := feedCentral_facts e1
      obtain ⟨cs, i1, i2, i3⟩ := ih st1 st' { w with subs := st1.subs, halos := st1.halos } hg rfl rfl hhc (by simp only; rw [hlen, hs, f2]) (by
        intro pre h' post hp hn
        have := htk (h :: pre) h' post (by rw [hp]; rfl) hn
        rw [ho] at this
        rw [this, f1]) e
      refine ⟨cs, ?_, by rw [i2, ho, f1], ⟨i3.len, fun i hi => i3.old i (by rw [f1]; exact hi), fun j h' hj => ?_⟩⟩
      · have hstep : feedStep snap tk h w = .ok { w with subs := st1.subs, halos := st1.halos } := by
          rw [feedStep, hg, h1, Outcome.bind_ok]
          simp only
          rw [hs, hh, f3 w.npro, Outcome.bind_ok]
        rw [runAll, hstep, Outcome.bind_ok, i1]
      · rw [ho] at hj
        have := i3.born j h' hj
        rw [f1] at this
        exact this

theorem orphaned_mem {groups : List (List Nat)} {n h : Nat} : h ∈ orphaned groups (List.range n) ↔ h < n ∧ groups[h]? = some [] := by
  unfold orphaned
  rw [List.mem_filter, List.mem_range, decide_eq_true_eq]

theorem ticket_succ (n : Nat) (ord : List Nat) (i : Nat) : ticket Nat.succ n ord i = n + ord.idxOf i := by
  rw [ticket, Nat.succ_iterate]

/-- The loop of `FeedCentrals`. -/
theorem feed_completes {snap : Int} {w : CWorld K D C} (hgl : w.groups.length = w.halos.length) (hhc : w.haloCentres.length = w.halos.length)
    (hlen : w.centres.length = w.subs.length) (hc : ∀ (h c : Nat) tl, w.groups[h]? = some (c :: tl) → c < w.npro)
    (hd : ∀ (h h' c : Nat) tl tl', w.groups[h]? = some (c :: tl) → w.groups[h']? = some (c :: tl') → h = h')
    (hok : ∀ order : List Nat, order.Perm (List.range w.halos.length) → ∃ st, feedLoop snap w.groups order ⟨w.npro, w.subs, w.halos⟩ = .ok st) :
    CompletesTo Races [feedPhase snap w.halos.length] (memC w) (fun m => ∃ (order : List Nat) (st : FeedState K D) (cs : List C),
      order.Perm (List.range w.halos.length) ∧ feedLoop snap w.groups order ⟨w.npro, w.subs, w.halos⟩ = .ok st ∧
      CentresAfter w.groups w.haloCentres w.centres cs w.npro order ∧
      m = memC { w with subs := st.subs, halos := st.halos, npro := st.npro, centres := cs }) := by
  obtain ⟨n, hn⟩ : ∃ n, n = w.halos.length := ⟨_, rfl⟩
  obtain ⟨B, hB⟩ : ∃ B, B = orphaned w.groups (List.range n) := ⟨_, rfl⟩
  obtain ⟨fed, hfed⟩ : ∃ fed, fed = (List.range n).filter (fun h => !decide (w.groups[h]? = some [])) := ⟨_, rfl⟩
  have hBn : B.Nodup := by rw [hB]; exact List.nodup_range.filter _
  have hmemB : ∀ h, h ∈ B ↔ h < n ∧ w.groups[h]? = some [] := fun h => by rw [hB]; exact orphaned_mem
  have hsplit : (B ++ fed).Perm (List.range n) := by rw [hB, hfed]; exact List.filter_append_perm _ _
  have hfo : orphaned w.groups fed = [] := by
    rw [orphaned, List.filter_eq_nil_iff]
    intro h hh
    rw [hfed, List.mem_filter] at hh
    simpa using hh.2
  have hordo : ∀ ord : List Nat, ord.Perm B → orphaned w.groups ord = ord := by
    intro ord hp
    rw [orphaned, List.filter_eq_self]
    intro h hh
    exact decide_eq_true ((hmemB h).1 (hp.mem_iff.1 hh)).2
  have hall : ∀ ord : List Nat, ord.Perm B → orphaned w.groups (ord ++ fed) = ord := by
    intro ord hp
    have : orphaned w.groups (ord ++ fed) = orphaned w.groups ord ++ orphaned w.groups fed := by unfold orphaned; rw [List.filter_append]
    rw [this, hfo, hordo ord hp, List.append_nil]
  have hperm : ∀ ord : List Nat, ord.Perm B → (ord ++ fed).Perm (List.range n) := fun ord hp => (hp.append_right fed).trans hsplit
  -- the sequential loop
  have hseq : ∀ ord : List Nat, ord.Perm B → ∃ st cs, feedLoop snap w.groups (ord ++ fed) ⟨w.npro, w.subs, w.halos⟩ = .ok st ∧
      runAll (feedStep snap (ticket Nat.succ w.npro ord)) (ord ++ fed) w = .ok { w with subs := st.subs, halos := st.halos, centres := cs } ∧
      st.npro = w.npro + ord.length ∧ CentresAfter w.groups w.haloCentres w.centres cs w.npro (ord ++ fed) := by
    intro ord hp
    obtain ⟨st, e⟩ := hok (ord ++ fed) (by rw [← hn]; exact hperm ord hp)
    obtain ⟨cs, h1, h2, h3⟩ := feed_follow (tk := ticket Nat.succ w.npro ord) (ord ++ fed) _ st w rfl rfl rfl (by omega) hlen (by
      intro pre h post hpre hnil
      have hmem : h ∈ ord := by
        have h1 : h ∈ orphaned w.groups (ord ++ fed) := by
          unfold orphaned
          rw [List.mem_filter]
          exact ⟨by rw [hpre]; simp, by simp [hnil]⟩
        rwa [hall ord hp] at h1
      have h2 : ord = orphaned w.groups pre ++ h :: orphaned w.groups post := by
        rw [← hall ord hp, hpre]
        unfold orphaned
        rw [List.filter_append, List.filter_cons_of_pos (by simp [hnil])]
      have h3 : h ∉ orphaned w.groups pre := by
        intro hin
        have hnd : ord.Nodup := hp.nodup_iff.2 hBn
        rw [h2] at hnd
        exact (List.nodup_append.1 hnd).2.2 h hin h List.mem_cons_self rfl
      rw [ticket_succ]
      congr 1
      rw [h2, List.idxOf_append_of_notMem h3, List.idxOf_cons_self, Nat.add_zero]) e
    refine ⟨st, cs, e, h1, ?_, h3⟩
    rw [h2, hall ord hp]
  -- the memory that belongs to an order
  obtain ⟨M, hM⟩ : ∃ M : List Nat → Mem CLoc (CLoc.Val K D C), ∀ ord, M ord = match runAll (feedStep snap (ticket Nat.succ w.npro ord)) (ord ++ fed) w with
    | .ok w' => memC w'
    | _ => memC w := ⟨_, fun _ => rfl⟩
  have howns : ∀ ord : List Nat, ord.Perm B → ∀ i, i < n → ∀ j, j < n → i ≠ j →
      ownSub w.groups (ticket Nat.succ w.npro ord) i ≠ ownSub w.groups (ticket Nat.succ w.npro ord) j := by
    intro ord hp i hi j hj hne heq
    have hgi : w.groups[i]? = some (w.groups[i]'(by omega)) := List.getElem?_eq_getElem _
    have hgj : w.groups[j]? = some (w.groups[j]'(by omega)) := List.getElem?_eq_getElem _
    cases h1 : w.groups[i]'(by omega) with
    | nil =>
      rw [h1] at hgi
      cases h2 : w.groups[j]'(by omega) with
      | nil =>
        rw [h2] at hgj
        rw [ownSub, ownSub, hgi, hgj] at heq
        simp only [ticket_succ] at heq
        have : ord.idxOf i = ord.idxOf j := by omega
        have hio : i ∈ ord := hp.mem_iff.2 ((hmemB i).2 ⟨hi, hgi⟩)
        exact hne ((List.idxOf_inj hio).1 this)
      | cons c tl =>
        rw [h2] at hgj
        rw [ownSub, ownSub, hgi, hgj] at heq
        simp only [ticket_succ] at heq
        have := hc j c tl hgj
        omega
    | cons c tl =>
      rw [h1] at hgi
      cases h2 : w.groups[j]'(by omega) with
      | nil =>
        rw [h2] at hgj
        rw [ownSub, ownSub, hgi, hgj] at heq
        simp only [ticket_succ] at heq
        have := hc i c tl hgi
        omega
      | cons c' tl' =>
        rw [h2] at hgj
        rw [ownSub, ownSub, hgi, hgj] at heq
        simp only at heq
        subst heq
        exact hne (hd i j c tl tl' hgi hgj)
  have hgood : ∀ ord : List Nat, ord.Perm B →
      Good Races ((List.range n).map (fun h => feedR snap (ticket Nat.succ w.npro ord h) h)) (memC w) (M ord) ∧
      ∀ h, h < n → ∀ a ∈ accs (feedR snap (ticket Nat.succ w.npro ord h) h) (memC w), a.loc ≠ CLoc.npro := by
    intro ord hp
    obtain ⟨st, cs, _, e2, _, _⟩ := hseq ord hp
    have hfoot := loop_good' (bad := Races) (σ := CWorld K D C) memC (feedStep snap (ticket Nat.succ w.npro ord))
      (fun h => feedR snap (ticket Nat.succ w.npro ord h) h) (feedFoot w.groups (ticket Nat.succ w.npro ord)) (fun _ x => x.groups = w.groups)
      (ord ++ fed) w _ ((hperm ord hp).nodup_iff.2 List.nodup_range) (by
        intro i hi j hj hne
        have hi' := List.mem_range.1 ((hperm ord hp).mem_iff.1 hi)
        have hj' := List.mem_range.1 ((hperm ord hp).mem_iff.1 hj)
        have ho := howns ord hp i hi' j hj' hne
        unfold feedFoot
        generalize ownSub w.groups (ticket Nat.succ w.npro ord) i = oi at ho
        generalize ownSub w.groups (ticket Nat.succ w.npro ord) j = oj at ho
        refine clear_footOf ?_ ?_
        · rintro ℓ (rfl | ⟨f, rfl⟩ | rfl)
          · exact ⟨(by rintro (e | e) <;> cases e), (by rintro (e | ⟨_, e⟩ | e) <;> cases e; exact hne rfl)⟩
          · exact ⟨(by rintro (e | e) <;> cases e), (by rintro (e | ⟨_, e⟩ | e) <;> cases e; exact ho rfl)⟩
          · exact ⟨(by rintro (e | e) <;> cases e), (by rintro (e | ⟨_, e⟩ | e) <;> cases e; exact ho rfl)⟩
        · rintro ℓ (rfl | ⟨f, rfl⟩ | rfl)
          · rintro (e | e) <;> cases e
          · rintro (e | e) <;> cases e
          · rintro (e | e) <;> cases e)
      (by
        intro i _ x x' hx hf
        have := feedR_does hf
        rw [hx] at this
        exact this)
      (by
        intro i _ j _ _ x x' _ hx hf
        rw [feedStep_keeps hf]; exact hx) (fun _ _ => rfl) e2
    constructor
    · have := hfoot.1.perm ((hperm ord hp).map _)
      rw [hM, e2]
      exact this
    · intro h hh a ha
      have := hfoot.2 h ((hperm ord hp).mem_iff.2 (List.mem_range.2 hh)) a ha
      cases a with
      | fetch ℓ => cases this
      | read ℓ =>
        rcases this with (rfl | rfl) | (rfl | ⟨f, rfl⟩ | rfl) <;> exact fun e => by cases e
      | write ℓ v =>
        rcases this with (rfl | ⟨f, rfl⟩ | rfl) <;> exact fun e => by cases e
  have hwait : Waits CLoc.npro Nat.succ w.npro B M ((List.range n).map (fun h => (h, feedP snap h))) (memC w) [] B := by
    have hres : ∀ rest : List Nat, ((List.range n).map (fun h => (h, feedP snap h))).map
        (fun x : Nat × CProg K D C Unit => resolve CLoc.npro (ticket Nat.succ w.npro ([] ++ rest) x.1) x.2) =
        (List.range n).map (fun h => feedR snap (ticket Nat.succ w.npro rest h) h) := by
      intro rest
      rw [List.map_map]
      refine List.map_congr_left (fun h _ => ?_)
      exact resolve_feed snap _ h
    refine ⟨rfl, List.Perm.refl _, ?_, ?_, ?_, ?_, ?_⟩
    · rw [List.map_map]
      have : (Prod.fst ∘ fun h => (h, (feedP snap h : CProg K D C Unit))) = id := rfl
      rw [this, List.map_id]
      exact List.nodup_range
    · intro i hi
      rw [List.map_map]
      exact List.mem_map.2 ⟨i, List.mem_range.2 ((hmemB i).1 hi).1, rfl⟩
    · intro rest hr
      rw [hres]
      obtain ⟨st, cs, _, e2, _, _⟩ := hseq rest hr
      have := (hgood rest hr).1
      have hMn : Function.update (M ([] ++ rest)) CLoc.npro (some (Nat.succ^[([] : List Nat).length] w.npro)) = M rest := by
        rw [List.nil_append, hM, e2]
        exact memC_npro _ _
      rw [hMn]
      exact this
    · intro rest hr x hx
      obtain ⟨h, hh, rfl⟩ := List.mem_map.1 hx
      have hh' := List.mem_range.1 hh
      have hg : w.groups[h]? = some (w.groups[h]'(by omega)) := List.getElem?_eq_getElem _
      rw [tickets_feed snap _ h hg]
      simp only
      by_cases hnil : w.groups[h]'(by omega) = []
      · rw [if_pos hnil, if_pos ((hmemB h).2 ⟨hh', by rw [hg, hnil]⟩)]
      · rw [if_neg hnil, if_neg (fun hin => hnil (by
          have := ((hmemB h).1 hin).2
          rw [hg] at this
          exact Option.some.inj this))]
    · intro rest hr x hx a ha
      obtain ⟨h, hh, rfl⟩ := List.mem_map.1 hx
      simp only [List.nil_append] at ha
      have : resolve CLoc.npro (ticket Nat.succ w.npro rest h) (feedP snap h : CProg K D C Unit) = _ := resolve_feed snap _ h
      exact (hgood rest hr).2 h (List.mem_range.1 hh) a (by rw [← this]; exact ha)
  have hfin := completes_tickets hBn hwait
  have hphase : ((List.range n).map (fun h => (h, (feedP snap h : CProg K D C Unit)))).map Prod.snd = feedPhase snap n := by
    rw [List.map_map]; rfl
  rw [hphase] at hfin
  rw [← hn]
  intro T work hT hw
  obtain ⟨a1, a2⟩ := hfin T work hT hw
  refine ⟨a1, fun s hs => ⟨(a2 s hs).1, fun hstuck => ?_⟩⟩
  obtain ⟨b1, ord, hp, b2⟩ := (a2 s hs).2 hstuck
  obtain ⟨st, cs, e1, e2, e3, e4⟩ := hseq ord hp
  refine ⟨b1, ord ++ fed, st, cs, hperm ord hp, e1, e4, ?_⟩
  rw [b2, hM, e2]
  simp only
  have hnum : Nat.succ^[B.length] w.npro = st.npro := by rw [Nat.succ_iterate, e3, hp.length_eq]
  exact (memC_npro _ _).trans (by rw [hnum])

end HBT.Threads
