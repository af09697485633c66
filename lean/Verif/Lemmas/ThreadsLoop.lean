import Verif.Lemmas.Threads
import Verif.Lemmas.Visit
/-!
# Helper lemmas: loops whose iterations do what a sequential model does
-/
namespace HBT.Threads
open HBT HBT.Model
variable {L : Type} {V : L → Type} {α β : Type} [DecidableEq L]

/-- No location comes into being. -/
theorem runs_exists' {ℓ : L} : ∀ (p : Prog L V α) (m m' : Mem L V) (a : α), runs p m = some (a, m') → (∃ v, m' ℓ = some v) → ∃ v, m ℓ = some v := by
  intro p
  induction p with
  | ret a' =>
    intro m m' a h hv
    simp only [runs, Option.some.injEq, Prod.mk.injEq] at h
    rw [h.2]; exact hv
  | fail => intro m m' a h; cases h
  | read ℓ' k ih =>
    intro m m' a h hv
    simp only [runs] at h
    cases hm : m ℓ' with
    | none => rw [hm] at h; cases h
    | some w => rw [hm] at h; exact ih w m m' a h hv
  | write ℓ' w k ih =>
    intro m m' a h hv
    simp only [runs] at h
    cases hm : m ℓ' with
    | none => rw [hm] at h; cases h
    | some w' =>
      rw [hm] at h
      by_cases e : ℓ = ℓ'
      · subst e; exact ⟨w', hm⟩
      · have := ih _ m' a h hv
        rwa [Function.update_of_ne e] at this
  | fetch ℓ' g k ih =>
    intro m m' a h hv
    simp only [runs] at h
    cases hm : m ℓ' with
    | none => rw [hm] at h; cases h
    | some w =>
      rw [hm] at h
      by_cases e : ℓ = ℓ'
      · subst e; exact ⟨w, hm⟩
      · have := ih w _ m' a h hv
        rwa [Function.update_of_ne e] at this

/-- The access does not depend on the value of its location. -/
def Access.blind : Access L V → Prop
  | .write _ _ => True
  | _ => False

/-- A program runs in the same way in two memories that agree on what it reads. -/
theorem runs_agree : ∀ (q : Prog L V α) (m1 m2 mf : Mem L V) (b : α), runs q m1 = some (b, mf) →
    (∀ x ∈ accs q m1, (∃ v, m2 x.loc = some v) ∧ (¬ x.blind → m2 x.loc = m1 x.loc)) →
    ∃ mf', runs q m2 = some (b, mf') ∧ accs q m2 = accs q m1 := by
  intro q
  induction q with
  | ret b' =>
    intro m1 m2 mf b h _
    simp only [runs, Option.some.injEq, Prod.mk.injEq] at h
    exact ⟨m2, by rw [h.1.symm]; rfl, rfl⟩
  | fail => intro m1 m2 mf b h _; cases h
  | read ℓ k ih =>
    intro m1 m2 mf b h hA
    simp only [runs, accs] at h hA ⊢
    cases hm : m1 ℓ with
    | none => rw [hm] at h; cases h
    | some v =>
      rw [hm] at h hA
      simp only at h hA
      have e : m2 ℓ = some v := by
        have h2 : m2 ℓ = m1 ℓ := (hA _ List.mem_cons_self).2 (fun hb => hb)
        rw [h2, hm]
      obtain ⟨mf', h1, h2⟩ := ih v m1 m2 mf b h (fun x hx => hA x (List.mem_cons_of_mem _ hx))
      rw [e]
      exact ⟨mf', h1, by simp only; rw [h2]⟩
  | write ℓ v k ih =>
    intro m1 m2 mf b h hA
    simp only [runs, accs] at h hA ⊢
    cases hm : m1 ℓ with
    | none => rw [hm] at h; cases h
    | some w =>
      rw [hm] at h hA
      simp only at h hA
      obtain ⟨w2, e⟩ : ∃ v, m2 ℓ = some v := (hA _ List.mem_cons_self).1
      obtain ⟨mf', h1, h2⟩ := ih (Function.update m1 ℓ (some v)) (Function.update m2 ℓ (some v)) mf b h (fun x hx => by
        have := hA x (List.mem_cons_of_mem _ hx)
        by_cases hx' : x.loc = ℓ
        · rw [hx', Function.update_self, Function.update_self]
          exact ⟨⟨v, rfl⟩, fun _ => rfl⟩
        · rw [Function.update_of_ne hx', Function.update_of_ne hx']; exact this)
      rw [e]
      exact ⟨mf', h1, by simp only; rw [h2]⟩
  | fetch ℓ g k ih =>
    intro m1 m2 mf b h hA
    simp only [runs, accs] at h hA ⊢
    cases hm : m1 ℓ with
    | none => rw [hm] at h; cases h
    | some v =>
      rw [hm] at h hA
      simp only at h hA
      have e : m2 ℓ = some v := by
        have h2 : m2 ℓ = m1 ℓ := (hA _ List.mem_cons_self).2 (fun hb => hb)
        rw [h2, hm]
      obtain ⟨mf', h1, h2⟩ := ih v (Function.update m1 ℓ (some (g v))) (Function.update m2 ℓ (some (g v))) mf b h (fun x hx => by
        have := hA x (List.mem_cons_of_mem _ hx)
        by_cases hx' : x.loc = ℓ
        · rw [hx', Function.update_self, Function.update_self]
          exact ⟨⟨g v, rfl⟩, fun _ => rfl⟩
        · rw [Function.update_of_ne hx', Function.update_of_ne hx']; exact this)
      rw [e]
      exact ⟨mf', h1, by simp only; rw [h2]⟩

/-- The locations accessed exist. -/
theorem accs_exists : ∀ (p : Prog L V α) (m m' : Mem L V) (a : α), runs p m = some (a, m') → ∀ x ∈ accs p m, ∃ v, m' x.loc = some v := by
  intro p
  induction p with
  | ret a' => intro m m' a h x hx; cases hx
  | fail => intro m m' a h; cases h
  | read ℓ' k ih =>
    intro m m' a h x hx
    simp only [runs, accs] at h hx
    cases hm : m ℓ' with
    | none => rw [hm] at h; cases h
    | some w =>
      rw [hm] at h hx
      rcases List.mem_cons.1 hx with rfl | hx
      · exact runs_exists (k w) m m' a h ⟨w, hm⟩
      · exact ih w m m' a h x hx
  | write ℓ' w k ih =>
    intro m m' a h x hx
    simp only [runs, accs] at h hx
    cases hm : m ℓ' with
    | none => rw [hm] at h; cases h
    | some w' =>
      rw [hm] at h hx
      rcases List.mem_cons.1 hx with rfl | hx
      · exact runs_exists k _ m' a h ⟨w, Function.update_self ..⟩
      · exact ih _ m' a h x hx
  | fetch ℓ' g k ih =>
    intro m m' a h x hx
    simp only [runs, accs] at h hx
    cases hm : m ℓ' with
    | none => rw [hm] at h; cases h
    | some w =>
      rw [hm] at h hx
      rcases List.mem_cons.1 hx with rfl | hx
      · exact runs_exists (k w) _ m' a h ⟨g w, Function.update_self ..⟩
      · exact ih w _ m' a h x hx

/-- Two footprints whose accesses do not interfere and are never related by `bad`. -/
def Clear (bad : Access L V → Access L V → Prop) (A B : Access L V → Prop) : Prop :=
  ∀ a b, A a → B b → ¬ Interferes a b ∧ ¬ bad a b ∧ ¬ bad b a

/-- A parallel loop whose iterations `p i` do what `f i` does, with accesses in footprints `A i` that are clear of each other. -/
theorem loop_good' {σ : Type} {bad : Access L V → Access L V → Prop} (enc : σ → Mem L V) (f : Nat → σ → Outcome σ)
    (p : Nat → Prog L V Unit) (A : Nat → Access L V → Prop) (Pre : Nat → σ → Prop) :
    ∀ (is : List Nat) (st st' : σ), is.Nodup → (∀ i ∈ is, ∀ j ∈ is, i ≠ j → Clear bad (A i) (A j)) →
    (∀ i ∈ is, ∀ st st', Pre i st → f i st = .ok st' → Does (A i) (p i) (enc st) () (enc st')) →
    (∀ i ∈ is, ∀ j ∈ is, i ≠ j → ∀ st st', Pre i st → Pre j st → f i st = .ok st' → Pre j st') →
    (∀ i ∈ is, Pre i st) → runAll f is st = .ok st' →
    Good bad (is.map p) (enc st) (enc st') ∧ ∀ i ∈ is, ∀ x ∈ accs (p i) (enc st), A i x := by
  intro is
  induction is with
  | nil =>
    intro st st' _ _ _ _ _ h
    cases h
    exact ⟨⟨fun p hp => by simp at hp, List.Pairwise.nil, List.Pairwise.nil, rfl⟩, fun i hi => by cases hi⟩
  | cons i is ih =>
    intro st st' hnd hcl hsim hpre h0 hrun
    rw [List.nodup_cons] at hnd
    rw [runAll] at hrun
    cases hf : f i st with
    | ub => rw [hf] at hrun; cases hrun
    | abort => rw [hf] at hrun; cases hrun
    | diverge => rw [hf] at hrun; cases hrun
    | ok st1 =>
      rw [hf, Outcome.bind_ok] at hrun
      have hne : ∀ j ∈ is, i ≠ j := fun j hj e => hnd.1 (e ▸ hj)
      have hi := hsim i List.mem_cons_self st st1 (h0 i List.mem_cons_self) hf
      obtain ⟨hg, ha⟩ := ih st1 st' hnd.2 (fun a ha b hb => hcl a (List.mem_cons_of_mem _ ha) b (List.mem_cons_of_mem _ hb))
        (fun a ha => hsim a (List.mem_cons_of_mem _ ha))
        (fun a ha b hb => hpre a (List.mem_cons_of_mem _ ha) b (List.mem_cons_of_mem _ hb))
        (fun j hj => hpre i List.mem_cons_self j (List.mem_cons_of_mem _ hj) (hne j hj) st st1 (h0 i List.mem_cons_self)
          (h0 j (List.mem_cons_of_mem _ hj)) hf) hrun
      have key : ∀ j ∈ is, (∃ mq, runs (p j) (enc st) = some ((), mq)) ∧ accs (p j) (enc st) = accs (p j) (enc st1) := by
        intro j hj
        obtain ⟨mp, hp⟩ := hg.ok (p j) (List.mem_map_of_mem hj)
        obtain ⟨mf', h1, h2⟩ := runs_agree (p j) (enc st1) (enc st) mp () hp (fun x hx => by
          have hxA := ha j hj x hx
          refine ⟨?_, fun hb => ?_⟩
          · refine runs_exists' (p i) (enc st) (enc st1) () hi.1 ?_
            exact runs_exists' (p j) (enc st1) mp () hp (accs_exists (p j) (enc st1) mp () hp x hx)
          · refine (runs_frame (p i) (enc st) (enc st1) () hi.1 (fun y hy he hw => ?_)).symm
            refine (hcl i List.mem_cons_self j (List.mem_cons_of_mem _ hj) (hne j hj) y x (hi.2 y hy) hxA).1 ⟨he, ?_, ?_⟩
            · rintro ⟨_, _, rfl, _⟩; exact hw
            · rintro ⟨_, _, _, rfl⟩; exact hb trivial)
        exact ⟨⟨mf', h1⟩, h2⟩
      have hacc : ∀ j ∈ i :: is, ∀ x ∈ accs (p j) (enc st), A j x := by
        intro j hj x hx
        rcases List.mem_cons.1 hj with rfl | hj
        · exact hi.2 x hx
        · rw [(key j hj).2] at hx
          exact ha j hj x hx
      refine ⟨⟨?_, ?_, ?_, ?_⟩, hacc⟩
      · intro q hq
        obtain ⟨j, hj, rfl⟩ := List.mem_map.1 hq
        rcases List.mem_cons.1 hj with rfl | hj
        · exact ⟨_, hi.1⟩
        · exact (key j hj).1
      · rw [List.map_cons, List.pairwise_cons]
        refine ⟨?_, ?_⟩
        · intro q hq
          obtain ⟨j, hj, rfl⟩ := List.mem_map.1 hq
          intro a ha' b hb
          exact (hcl i List.mem_cons_self j (List.mem_cons_of_mem _ hj) (hne j hj) a b (hi.2 a ha')
            (hacc j (List.mem_cons_of_mem _ hj) b hb)).1
        · have := hg.apart
          rw [List.pairwise_map] at this ⊢
          refine this.imp_of_mem (fun {a b} ha' hb' hx => ?_)
          rw [(key a ha').2, (key b hb').2]; exact hx
      · rw [List.map_cons, List.pairwise_cons]
        refine ⟨?_, ?_⟩
        · intro q hq
          obtain ⟨j, hj, rfl⟩ := List.mem_map.1 hq
          intro a ha' b hb
          exact (hcl i List.mem_cons_self j (List.mem_cons_of_mem _ hj) (hne j hj) a b (hi.2 a ha')
            (hacc j (List.mem_cons_of_mem _ hj) b hb)).2
        · have := hg.fine
          rw [List.pairwise_map] at this ⊢
          refine this.imp_of_mem (fun {a b} ha' hb' hx => ?_)
          rw [(key a ha').2, (key b hb').2]; exact hx
      · rw [List.map_cons, runSeq, hi.1]
        exact hg.seq

/-- The same for any arrangement of the iterations. -/
theorem loop_completes {σ : Type} {bad : Access L V → Access L V → Prop} (enc : σ → Mem L V) (f : Nat → σ → Outcome σ)
    (p : Nat → Prog L V Unit) (A : Nat → Access L V → Prop) (Pre : Nat → σ → Prop) {is js : List Nat} {st st' : σ} (hnd : is.Nodup)
    (hperm : is.Perm js)
    (hcl : ∀ i ∈ is, ∀ j ∈ is, i ≠ j → Clear bad (A i) (A j))
    (hsim : ∀ i ∈ is, ∀ st st', Pre i st → f i st = .ok st' → Does (A i) (p i) (enc st) () (enc st'))
    (hpre : ∀ i ∈ is, ∀ j ∈ is, i ≠ j → ∀ st st', Pre i st → Pre j st → f i st = .ok st' → Pre j st')
    (h0 : ∀ i ∈ is, Pre i st) (hrun : runAll f is st = .ok st') : Completes bad [js.map p] (enc st) (enc st') :=
  completes_phase ((loop_good' enc f p A Pre is st st' hnd hcl hsim hpre h0 hrun).1.perm (hperm.map p))

end HBT.Threads
