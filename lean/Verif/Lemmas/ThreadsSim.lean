import Verif.Model.Threads
import Verif.Lemmas.ThreadsLoop
import Verif.Lemmas.Origin
/-!
# Helper lemmas: the programs of the threads do what the sequential model does
-/
namespace HBT.Threads
open HBT HBT.Model
variable {K D E S Q α : Type}

/-! ## The memory -/

/-- Changing a member. -/
def Field.put : (f : Field) → f.Val K D → Sub K D → Sub K D
  | .trackId, v, s => { s with trackId := v }
  | .nbound, v, s => { s with nbound := v }
  | .mbound, v, s => { s with mbound := v }
  | .hostHaloId, v, s => { s with hostHaloId := v }
  | .rank, v, s => { s with rank := v }
  | .depth, v, s => { s with depth := v }
  | .lastMaxMass, v, s => { s with lastMaxMass := v }
  | .snapMaxMass, v, s => { s with snapMaxMass := v }
  | .snapIsolation, v, s => { s with snapIsolation := v }
  | .snapBirth, v, s => { s with snapBirth := v }
  | .snapDeath, v, s => { s with snapDeath := v }
  | .snapSink, v, s => { s with snapSink := v }
  | .sinkTrackId, v, s => { s with sinkTrackId := v }
  | .particles, v, s => { s with particles := v }
  | .nested, v, s => { s with nested := v }

theorem Field.get_put (f : Field) (v : f.Val K D) (s : Sub K D) : f.get (f.put v s) = v := by cases f <;> rfl

theorem Field.get_put_ne {f g : Field} (h : g ≠ f) (v : f.Val K D) (s : Sub K D) : g.get (f.put v s) = g.get s := by
  cases f <;> cases g <;> first | rfl | exact absurd rfl h

theorem sub_ext {s t : Sub K D} (h : ∀ f : Field, f.get s = f.get t) : s = t := by
  cases s; cases t
  have h1 := h .trackId; have h2 := h .nbound; have h3 := h .mbound; have h4 := h .hostHaloId; have h5 := h .rank
  have h6 := h .depth; have h7 := h .lastMaxMass; have h8 := h .snapMaxMass; have h9 := h .snapIsolation; have h10 := h .snapBirth
  have h11 := h .snapDeath; have h12 := h .snapSink; have h13 := h .sinkTrackId; have h14 := h .particles; have h15 := h .nested
  simp only [Field.get] at *
  simp only [h1, h2, h3, h4, h5, h6, h7, h8, h9, h10, h11, h12, h13, h14, h15]

/-- With other subhaloes. -/
def World.withSubs (w : World K D) (subs : List (Sub K D)) : World K D := { w with subs := subs }

@[simp] theorem World.withSubs_subs (w : World K D) (l : List (Sub K D)) : (w.withSubs l).subs = l := rfl
@[simp] theorem World.withSubs_withSubs (w : World K D) (l l' : List (Sub K D)) : (w.withSubs l).withSubs l' = w.withSubs l' := rfl
@[simp] theorem World.withSubs_self (w : World K D) : w.withSubs w.subs = w := rfl

theorem memOf_sub {w : World K D} {i : Nat} {s : Sub K D} (h : w.subs[i]? = some s) (f : Field) : memOf w (.sub i f) = some (f.get s) := by
  simp [memOf, h]

/-- Accesses: reads in `R` or `W`, writes in `W`. -/
def foot (R W : Loc → Prop) : Access Loc (Loc.Val K D) → Prop
  | .read ℓ => R ℓ ∨ W ℓ
  | .write ℓ _ => W ℓ
  | .fetch _ => False

theorem clear_foot {bad : Access Loc (Loc.Val K D) → Access Loc (Loc.Val K D) → Prop} (hbad : ∀ a b, bad a b → Races a b)
    {R1 W1 R2 W2 : Loc → Prop} (h1 : ∀ ℓ, W1 ℓ → ¬ R2 ℓ ∧ ¬ W2 ℓ) (h2 : ∀ ℓ, W2 ℓ → ¬ R1 ℓ) :
    Clear bad (foot R1 W1 : Access Loc (Loc.Val K D) → Prop) (foot R2 W2) := by
  have key : ∀ a b : Access Loc (Loc.Val K D), foot R1 W1 a → foot R2 W2 b → a.loc = b.loc → (∃ ℓ, a = .read ℓ) ∧ ∃ ℓ, b = .read ℓ := by
    intro a b ha hb e
    cases a with
    | fetch ℓ => cases ha
    | read ℓ =>
      refine ⟨⟨ℓ, rfl⟩, ?_⟩
      cases b with
      | fetch ℓ' => cases hb
      | read ℓ' => exact ⟨ℓ', rfl⟩
      | write ℓ' v =>
        cases (show ℓ = ℓ' from e)
        rcases ha with ha | ha
        · exact absurd ha (h2 _ hb)
        · exact absurd hb (h1 _ ha).2
    | write ℓ v =>
      exfalso
      cases b with
      | fetch ℓ' => cases hb
      | read ℓ' =>
        cases (show ℓ = ℓ' from e)
        rcases hb with hb | hb
        · exact (h1 _ ha).1 hb
        · exact (h1 _ ha).2 hb
      | write ℓ' v' =>
        cases (show ℓ = ℓ' from e)
        exact (h1 _ ha).2 hb
  have loc_of : ∀ a b : Access Loc (Loc.Val K D), Races a b → a.loc = b.loc := by
    intro a b h
    cases a <;> cases b <;> first | exact h | cases h
  have hr : ∀ a b : Access Loc (Loc.Val K D), foot R1 W1 a → foot R2 W2 b → ¬ Races a b ∧ ¬ Races b a := by
    intro a b ha hb
    constructor
    · intro h
      obtain ⟨⟨ℓ, rfl⟩, ℓ', rfl⟩ := key a b ha hb (loc_of a b h)
      exact h
    · intro h
      obtain ⟨⟨ℓ, rfl⟩, ℓ', rfl⟩ := key a b ha hb (loc_of b a h).symm
      exact h
  intro a b ha hb
  refine ⟨?_, fun h => (hr a b ha hb).1 (hbad _ _ h), fun h => (hr a b ha hb).2 (hbad _ _ h)⟩
  intro h
  obtain ⟨⟨ℓ, rfl⟩, ℓ', rfl⟩ := key a b ha hb h.1
  exact h.2.1 ⟨_, _, rfl, rfl⟩

variable {A : Access Loc (Loc.Val K D) → Prop}

theorem does_rd {w : World K D} {i : Nat} {s : Sub K D} (h : w.subs[i]? = some s) {f : Field} (hA : A (.read (.sub i f))) :
    Does A (rd i f) (memOf w) (f.get s) (memOf w) := Does.load (memOf_sub h f) hA

theorem memOf_put {w : World K D} {i : Nat} {s : Sub K D} (h : w.subs[i]? = some s) (f : Field) (v : f.Val K D) :
    Function.update (memOf w) (.sub i f) (some v) = memOf (w.withSubs (w.subs.set i (f.put v s))) := by
  have hi := (List.getElem?_eq_some_iff.1 h).1
  funext ℓ
  by_cases e : ℓ = .sub i f
  · subst e
    rw [Function.update_self]
    simp [memOf, World.withSubs, hi, Field.get_put]
  · rw [Function.update_of_ne e]
    cases ℓ with
    | sub j g =>
      by_cases hj : j = i
      · subst hj
        have hg : g ≠ f := fun hg => e (by rw [hg])
        simp [memOf, World.withSubs, hi, Field.get_put_ne hg, h]
        rw [List.getElem?_eq_getElem hi] at h
        cases h; rfl
      · simp [memOf, World.withSubs, List.getElem?_set_ne (Ne.symm hj)]
    | _ => rfl

theorem does_wr {w : World K D} {i : Nat} {s : Sub K D} (h : w.subs[i]? = some s) {f : Field} (v : f.Val K D)
    (hA : A (.write (.sub i f) v)) : Does A (wr i f v) (memOf w) () (memOf (w.withSubs (w.subs.set i (f.put v s)))) := by
  have := Does.store (A := A) v (memOf_sub h f) hA
  rw [memOf_put h] at this
  exact this

/-- All accesses to subhalo `i` are allowed. -/
def Owns (A : Access Loc (Loc.Val K D) → Prop) (i : Nat) : Prop :=
  ∀ f : Field, A (.read (.sub i f)) ∧ ∀ v : f.Val K D, A (.write (.sub i f) v)

/-- The program takes the subhaloes `st` to `st'`; `w` are the other locations. -/
def Sim (A : Access Loc (Loc.Val K D) → Prop) (w : World K D) (p : TProg K D α) (st : List (Sub K D)) (a : α) (st' : List (Sub K D)) : Prop :=
  Does A p (memOf (w.withSubs st)) a (memOf (w.withSubs st'))

variable {w : World K D} {st st1 st2 st' : List (Sub K D)}

theorem Sim.pure (a : α) : Sim A w (Pure.pure a) st a st := Does.pure A a _

theorem Sim.bind {β : Type} {p : TProg K D α} {f : α → TProg K D β} {a : α} {b : β} (h1 : Sim A w p st a st1) (h2 : Sim A w (f a) st1 b st2) :
    Sim A w (p >>= f) st b st2 := Does.bind h1 h2

theorem Sim.rd {i : Nat} {s : Sub K D} (h : st[i]? = some s) {f : Field} (hA : A (.read (.sub i f))) : Sim A w (rd i f) st (f.get s) st :=
  does_rd (w := w.withSubs st) h hA

theorem Sim.wr {i : Nat} {s : Sub K D} (h : st[i]? = some s) {f : Field} (v : f.Val K D) (hA : A (.write (.sub i f) v)) :
    Sim A w (wr i f v) st () (st.set i (f.put v s)) := does_wr (w := w.withSubs st) h v hA

theorem Sim.wr' {i : Nat} {s : Sub K D} (hi : i < st.length) {f : Field} (v : f.Val K D) (hA : A (.write (.sub i f) v)) :
    Sim A w (Threads.wr i f v) (st.set i s) () (st.set i (f.put v s)) := by
  have := Sim.wr (A := A) (w := w) (st := st.set i s) (i := i) (s := s) (by simp [hi]) v hA
  rwa [List.set_set] at this

theorem Sim.load {ℓ : Loc} {v : Loc.Val K D ℓ} (hm : memOf (w.withSubs st) ℓ = some v) (hA : A (.read ℓ)) : Sim A w (load ℓ) st v st :=
  Does.load hm hA

theorem set_self {γ : Type} {l : List γ} {i : Nat} {x : γ} (h : l[i]? = some x) : l.set i x = l := by
  obtain ⟨hi, rfl⟩ := List.getElem?_eq_some_iff.1 h
  simp

theorem sim_readSub {i : Nat} {s : Sub K D} (h : st[i]? = some s) (hA : Owns A i) : Sim A w (readSub i) st s st := by
  unfold readSub
  refine Sim.bind (Sim.rd h (hA _).1) (Sim.bind (Sim.rd h (hA _).1) (Sim.bind (Sim.rd h (hA _).1) (Sim.bind (Sim.rd h (hA _).1) ?_)))
  refine Sim.bind (Sim.rd h (hA _).1) (Sim.bind (Sim.rd h (hA _).1) (Sim.bind (Sim.rd h (hA _).1) (Sim.bind (Sim.rd h (hA _).1) ?_)))
  refine Sim.bind (Sim.rd h (hA _).1) (Sim.bind (Sim.rd h (hA _).1) (Sim.bind (Sim.rd h (hA _).1) (Sim.bind (Sim.rd h (hA _).1) ?_)))
  refine Sim.bind (Sim.rd h (hA _).1) (Sim.bind (Sim.rd h (hA _).1) (Sim.bind (Sim.rd h (hA _).1) ?_))
  exact Sim.pure s

theorem sim_writeSub {i : Nat} (hi : i < st.length) (s : Sub K D) (hA : Owns A i) : Sim A w (writeSub i s) st () (st.set i s) := by
  obtain ⟨s0, h0⟩ : ∃ s0, st[i]? = some s0 := ⟨st[i], List.getElem?_eq_getElem hi⟩
  have hfin : ∀ x, Field.put .nested s.nested x = s → Sim A w (wr i .nested s.nested) (st.set i x) () (st.set i s) := fun x e => by
    have := Sim.wr' (A := A) (w := w) (s := x) hi (f := .nested) s.nested ((hA _).2 _)
    rwa [e] at this
  have key : Sim A w (writeSub i s) (st.set i s0) () (st.set i s) := by
    unfold writeSub
    refine Sim.bind (Sim.wr' hi _ ((hA _).2 _)) (Sim.bind (Sim.wr' hi _ ((hA _).2 _)) (Sim.bind (Sim.wr' hi _ ((hA _).2 _)) ?_))
    refine Sim.bind (Sim.wr' hi _ ((hA _).2 _)) (Sim.bind (Sim.wr' hi _ ((hA _).2 _)) (Sim.bind (Sim.wr' hi _ ((hA _).2 _)) ?_))
    refine Sim.bind (Sim.wr' hi _ ((hA _).2 _)) (Sim.bind (Sim.wr' hi _ ((hA _).2 _)) (Sim.bind (Sim.wr' hi _ ((hA _).2 _)) ?_))
    refine Sim.bind (Sim.wr' hi _ ((hA _).2 _)) (Sim.bind (Sim.wr' hi _ ((hA _).2 _)) (Sim.bind (Sim.wr' hi _ ((hA _).2 _)) ?_))
    refine Sim.bind (Sim.wr' hi _ ((hA _).2 _)) (Sim.bind (Sim.wr' hi _ ((hA _).2 _)) ?_)
    refine hfin _ ?_
    simp only [Field.put]
  rwa [set_self h0] at key

theorem sim_apply {g : Sub K D → Outcome (Sub K D)} {i : Nat} {s s' : Sub K D} (h : st[i]? = some s) (hg : g s = .ok s') (hA : Owns A i) :
    Sim A w (applyP g i) st () (st.set i s') := by
  unfold applyP
  refine Sim.bind (sim_readSub h hA) (Sim.bind (a := s') (st1 := st) ?_ (sim_writeSub (List.getElem?_eq_some_iff.1 h).1 s' hA))
  rw [hg]
  exact Does.ret A s' _

/-- What a program does not own stays as it is. -/
theorem Sim.frame {p : TProg K D α} {a : α} (h : Sim A w p st a st') {i : Nat} (hA : ∀ (f : Field) (v : f.Val K D), ¬ A (.write (.sub i f) v))
    (hA' : ∀ f : Field, ¬ A (.fetch (.sub i f))) : st'[i]? = st[i]? := by
  have key : ∀ f : Field, memOf (w.withSubs st') (.sub i f) = memOf (w.withSubs st) (.sub i f) := fun f =>
    runs_frame p _ _ a h.1 (fun y hy he hw => by
      have := h.2 y hy
      cases y with
      | read ℓ => exact hw
      | write ℓ v => cases (show ℓ = _ from he); exact hA f v this
      | fetch ℓ => cases (show ℓ = _ from he); exact hA' f this)
  simp only [memOf, World.withSubs_subs] at key
  cases h1 : st[i]? with
  | none =>
    have := key .nested
    rw [h1] at this
    simpa using this
  | some s =>
    cases h2 : st'[i]? with
    | none =>
      have := key .nested
      rw [h1, h2] at this
      simp at this
    | some s' =>
      have : s' = s := sub_ext (fun f => by have := key f; rw [h1, h2] at this; simpa using this)
      rw [this]

theorem memOf_exists {w : World K D} {i : Nat} {f : Field} : (∃ v, memOf w (.sub i f) = some v) ↔ i < w.subs.length := by
  constructor
  · rintro ⟨v, h⟩
    by_contra hi
    simp [memOf, List.getElem?_eq_none (Nat.le_of_not_lt hi)] at h
  · intro hi
    exact ⟨_, memOf_sub (List.getElem?_eq_getElem hi) f⟩

/-- The number of subhaloes does not change. -/
theorem Sim.length {p : TProg K D α} {a : α} (h : Sim A w p st a st') : st'.length = st.length := by
  have key : ∀ i, i < st'.length ↔ i < st.length := fun i =>
    ⟨fun hi => memOf_exists (f := .nested).1 (runs_exists' p _ _ a h.1 (memOf_exists (w := w.withSubs st').2 hi)),
      fun hi => memOf_exists (f := .nested).1 (runs_exists p _ _ a h.1 (memOf_exists (w := w.withSubs st).2 hi))⟩
  have h1 := key st.length
  have h2 := key st'.length
  omega

/-! ## Loops over disjoint sets of subhaloes -/

/-- The subhaloes of `T` are read and written, everything else but subhaloes may be read. -/
def ownFoot (T : Nat → Prop) : Access Loc (Loc.Val K D) → Prop :=
  foot (fun ℓ => ∀ j f, ℓ ≠ .sub j f) (fun ℓ => ∃ j f, ℓ = .sub j f ∧ T j)

theorem ownFoot_owns {T : Nat → Prop} {i : Nat} (h : T i) : Owns (ownFoot T : Access Loc (Loc.Val K D) → Prop) i :=
  fun f => ⟨Or.inr ⟨i, f, rfl, h⟩, fun _ => ⟨i, f, rfl, h⟩⟩

theorem ownFoot_not {T : Nat → Prop} {i : Nat} (h : ¬ T i) (f : Field) (v : f.Val K D) :
    ¬ (ownFoot T : Access Loc (Loc.Val K D) → Prop) (.write (.sub i f) v) := by
  rintro ⟨j, g, e, hj⟩
  cases e
  exact h hj

theorem clear_own {bad : Access Loc (Loc.Val K D) → Access Loc (Loc.Val K D) → Prop} (hbad : ∀ a b, bad a b → Races a b)
    {T1 T2 : Nat → Prop} (h : ∀ i, T1 i → ¬ T2 i) : Clear bad (ownFoot T1 : Access Loc (Loc.Val K D) → Prop) (ownFoot T2) := by
  refine clear_foot hbad ?_ ?_
  · rintro ℓ ⟨j, f, rfl, hj⟩
    refine ⟨fun h' => h' j f rfl, ?_⟩
    rintro ⟨j', f', e, hj'⟩
    cases e
    exact h j hj hj'
  · rintro ℓ ⟨j, f, rfl, hj⟩ h'
    exact h' j f rfl

/-- What is true before an iteration and does not depend on the others is true after the loop. -/
theorem runAll_pre {σ : Type} {f : Nat → σ → Outcome σ} {Pre : Nat → σ → Prop} : ∀ (is : List Nat) (st st' : σ), is.Nodup →
    (∀ i ∈ is, ∀ st st', Pre i st → f i st = .ok st' → Pre i st') →
    (∀ i ∈ is, ∀ j, i ≠ j → ∀ st st', Pre i st → Pre j st → f i st = .ok st' → Pre j st') →
    (∀ i ∈ is, Pre i st) → runAll f is st = .ok st' → ∀ j, Pre j st → Pre j st' := by
  intro is
  induction is with
  | nil => intro st st' _ _ _ _ h j hj; cases h; exact hj
  | cons i is ih =>
    intro st st' hnd hown hoth h0 hrun j hj
    rw [List.nodup_cons] at hnd
    rw [runAll] at hrun
    cases hf : f i st with
    | ub => rw [hf] at hrun; cases hrun
    | abort => rw [hf] at hrun; cases hrun
    | diverge => rw [hf] at hrun; cases hrun
    | ok st1 =>
      rw [hf, Outcome.bind_ok] at hrun
      have hne : ∀ j ∈ is, i ≠ j := fun j hj e => hnd.1 (e ▸ hj)
      have step : ∀ j, Pre j st → Pre j st1 := by
        intro j hj
        by_cases e : i = j
        · subst e; exact hown i List.mem_cons_self st st1 hj hf
        · exact hoth i List.mem_cons_self j e st st1 (h0 i List.mem_cons_self) hj hf
      exact ih st1 st' hnd.2 (fun a ha => hown a (List.mem_cons_of_mem _ ha)) (fun a ha => hoth a (List.mem_cons_of_mem _ ha))
        (fun a ha => step a (h0 a (List.mem_cons_of_mem _ ha))) hrun j (step j hj)

theorem subs_loop {bad : Access Loc (Loc.Val K D) → Access Loc (Loc.Val K D) → Prop} (hbad : ∀ a b, bad a b → Races a b)
    (w : World K D) (f : Nat → List (Sub K D) → Outcome (List (Sub K D))) (p : Nat → TProg K D Unit) (T : Nat → Nat → Prop)
    (Pre : Nat → List (Sub K D) → Prop) {is js : List Nat} {st st' : List (Sub K D)} (hnd : is.Nodup) (hperm : is.Perm js)
    (hdis : ∀ i ∈ is, ∀ j, i ≠ j → ∀ x, T i x → ¬ T j x)
    (hsim : ∀ i ∈ is, ∀ st st', Pre i st → f i st = .ok st' → Sim (ownFoot (T i)) w (p i) st () st' ∧ Pre i st')
    (hloc : ∀ j st st', Pre j st → (∀ x, T j x → st'[x]? = st[x]?) → Pre j st')
    (h0 : ∀ i ∈ is, Pre i st) (hrun : runAll f is st = .ok st') :
    Completes bad [js.map p] (memOf (w.withSubs st)) (memOf (w.withSubs st')) ∧ st'.length = st.length ∧ ∀ j, Pre j st → Pre j st' := by
  have hoth : ∀ i ∈ is, ∀ j, i ≠ j → ∀ st st', Pre i st → Pre j st → f i st = .ok st' → Pre j st' := by
    intro i hi j hne st st' hpi hpj hf
    refine hloc j st st' hpj (fun x hx => ?_)
    exact (hsim i hi st st' hpi hf).1.frame (fun g v => ownFoot_not (fun h => hdis i hi j hne x h hx) g v) (fun g h => h)
  have hlen : st'.length = st.length := by
    have := runAll_pre (f := f) (Pre := fun j st2 => (j ∈ is → Pre j st2) ∧ st2.length = st.length) is st st' hnd
      (fun i hi s1 s2 hp hf => ⟨fun _ => (hsim i hi s1 s2 (hp.1 hi) hf).2, by rw [← hp.2]; exact (hsim i hi s1 s2 (hp.1 hi) hf).1.length⟩)
      (fun i hi j hne s1 s2 hpi hpj hf => ⟨fun hj => hoth i hi j hne s1 s2 (hpi.1 hi) (hpj.1 hj) hf,
        by rw [← hpj.2]; exact (hsim i hi s1 s2 (hpi.1 hi) hf).1.length⟩)
      (fun i hi => ⟨fun _ => h0 i hi, rfl⟩) hrun
    cases is with
    | nil => cases hrun; rfl
    | cons i is => exact (this i ⟨fun _ => h0 i List.mem_cons_self, rfl⟩).2
  refine ⟨?_, hlen, runAll_pre is st st' hnd (fun i hi st st' hp hf => (hsim i hi st st' hp hf).2) hoth h0 hrun⟩
  exact loop_completes (fun st => memOf (w.withSubs st)) f p (fun i => ownFoot (T i)) Pre hnd hperm
    (fun i hi j _ hne => clear_own hbad (hdis i hi j hne)) (fun i hi st st' hp hf => (hsim i hi st st' hp hf).1)
    (fun i hi j _ hne => hoth i hi j hne) h0 hrun

/-! ## Recursion over nests -/

/-- The nests of the subhaloes in `T` stay in `T`. -/
def Closed (T : Nat → Prop) (st : List (Sub K D)) : Prop := ∀ i s, T i → st[i]? = some s → ∀ k ∈ s.nested, 0 ≤ k → T k.toNat

theorem Closed.local {T : Nat → Prop} {st st' : List (Sub K D)} (h : Closed T st) (he : ∀ x, T x → st'[x]? = st[x]?) : Closed T st' :=
  fun i s hi hs => h i s hi (by rw [← he i hi]; exact hs)

theorem Closed.set {T : Nat → Prop} {st : List (Sub K D)} (h : Closed T st) {i : Nat} {s : Sub K D}
    (hs : T i → ∀ k ∈ s.nested, 0 ≤ k → T k.toNat) : Closed T (st.set i s) := by
  intro j t hj ht
  by_cases e : i = j
  · subst e
    by_cases hi : i < st.length
    · simp only [List.getElem?_set_self hi, Option.some.injEq] at ht
      subst ht
      exact hs hj
    · rw [List.getElem?_eq_none (by simpa using hi)] at ht
      cases ht
  · rw [List.getElem?_set_ne e] at ht
    exact h j t hj ht

theorem Closed.set_same {T : Nat → Prop} {st : List (Sub K D)} (h : Closed T st) {i : Nat} {s0 s : Sub K D} (h0 : st[i]? = some s0)
    (hs : s.nested = s0.nested) : Closed T (st.set i s) := h.set (fun hi => by rw [hs]; exact h i s0 hi h0)

theorem get_ok {γ : Type} {l : List γ} {i : Nat} {x : γ} (h : Outcome.get l i = .ok x) : l[i]? = some x := by
  unfold Outcome.get at h
  cases e : l[i]? with
  | none => rw [e] at h; cases h
  | some y => rw [e] at h; cases h; rfl

theorem set_ok {γ : Type} {l l' : List γ} {i : Nat} {x : γ} (h : Outcome.set l i x = .ok l') : i < l.length ∧ l' = l.set i x := by
  unfold Outcome.set at h
  split_ifs at h with hi
  cases h
  exact ⟨hi, rfl⟩

theorem visitKids_sim {σ : Type} {tl : σ → S} {sb : σ → List (Sub K D)} {Inv : σ → Prop} {T : Nat → Prop} {rec after : Nat → σ → Outcome σ}
    {recP : Nat → S → TProg K D S} {afterP : Nat → TProg K D Unit}
    (hrec : ∀ k st st', Inv st → T k → rec k st = .ok st' → Sim A w (recP k (tl st)) (sb st) (tl st') (sb st') ∧ Inv st')
    (hafter : ∀ k st st', Inv st → T k → after k st = .ok st' → Sim A w (afterP k) (sb st) () (sb st') ∧ Inv st' ∧ tl st' = tl st) :
    ∀ (ks : List Int) (st st' : σ), (∀ k ∈ ks, 0 ≤ k → T k.toNat) → Inv st → visitKids rec after ks st = .ok st' →
      Sim A w (visitKidsP recP afterP ks (tl st)) (sb st) (tl st') (sb st') ∧ Inv st' := by
  intro ks
  induction ks with
  | nil => intro st st' _ hI h; cases h; exact ⟨Sim.pure _, hI⟩
  | cons k ks ih =>
    intro st st' hT hI h
    rw [visitKids] at h
    rw [visitKidsP]
    split_ifs at h ⊢ with hk
    obtain ⟨st1, h1, h⟩ := bind_eq_ok h
    obtain ⟨st2, h2, h⟩ := bind_eq_ok h
    have hTk := hT k List.mem_cons_self (by omega)
    obtain ⟨a1, i1⟩ := hrec _ _ _ hI hTk h1
    obtain ⟨a2, i2, e2⟩ := hafter _ _ _ i1 hTk h2
    obtain ⟨a3, i3⟩ := ih st2 st' (fun x hx => hT x (List.mem_cons_of_mem _ hx)) i2 h
    rw [e2] at a3
    exact ⟨Sim.bind a1 (Sim.bind a2 a3), i3⟩

theorem visit_sim {σ : Type} {tl : σ → S} {sb : σ → List (Sub K D)} {Inv : σ → Prop} {T : Nat → Prop}
    {nest : Nat → σ → Outcome (List Int)} {enter : Nat → σ → Outcome Q} {after : Nat → Nat → σ → Outcome σ} {leave : Q → Nat → σ → Outcome σ}
    {enterP : Nat → TProg K D Q} {afterP : Nat → Nat → TProg K D Unit} {leaveP : Q → Nat → S → TProg K D S}
    (hown : ∀ i, T i → Owns A i)
    (hnest : ∀ id st ks, nest id st = .ok ks → ∃ s, (sb st)[id]? = some s ∧ s.nested = ks)
    (hclosed : ∀ st, Inv st → Closed T (sb st))
    (henter : ∀ id st q, Inv st → T id → enter id st = .ok q → Sim A w (enterP id) (sb st) q (sb st))
    (hafter : ∀ id k st st', Inv st → T id → T k → after id k st = .ok st' →
      Sim A w (afterP id k) (sb st) () (sb st') ∧ Inv st' ∧ tl st' = tl st)
    (hleave : ∀ q id st st', Inv st → T id → leave q id st = .ok st' →
      Sim A w (leaveP q id (tl st)) (sb st) (tl st') (sb st') ∧ Inv st') :
    ∀ (fuel id : Nat) (st st' : σ), Inv st → T id → visit nest enter after leave fuel id st = .ok st' →
      Sim A w (visitP enterP afterP leaveP fuel id (tl st)) (sb st) (tl st') (sb st') ∧ Inv st' := by
  intro fuel
  induction fuel with
  | zero => intro id st st' _ _ h; cases h
  | succ fuel ih =>
    intro id st st' hI hT h
    rw [visit] at h
    rw [visitP]
    obtain ⟨q, h1, h⟩ := bind_eq_ok h
    obtain ⟨ks, h2, h⟩ := bind_eq_ok h
    obtain ⟨s, hs, e⟩ := hnest _ _ _ h2
    rw [← e] at h
    obtain ⟨st1, h3, h4⟩ := bind_eq_ok h
    obtain ⟨a1, i1⟩ := visitKids_sim (tl := tl) (sb := sb) (Inv := Inv) (T := T) ih (fun k st st' a b c => hafter id k st st' a hT b c) s.nested st st1
      (hclosed st hI id s hT hs) hI h3
    obtain ⟨a2, i2⟩ := hleave _ _ _ _ i1 hT h4
    exact ⟨Sim.bind (henter _ _ _ hI hT h1) (Sim.bind (Sim.rd hs (hown _ hT _).1) (Sim.bind a1 a2)), i2⟩

end HBT.Threads
