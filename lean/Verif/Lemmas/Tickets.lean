import Mathlib.Logic.Function.Iterate
import Verif.Spec.Tickets
import Verif.Lemmas.Threads
/-!
# Helper lemmas: iterations that draw numbers in a critical section

Which number an iteration draws depends on the schedule. But when the numbers are given, the iterations do not interfere. So the invariant of an
execution is: whatever the order in which the iterations that have not drawn yet will do so, with the numbers they will
get, what remains to be done leads to the memory that belongs to this order.
-/
namespace HBT.Threads
variable {L : Type} {V : L → Type} {α : Type} [DecidableEq L]

/-- The program with the value `v` for what it draws from `c`. -/
def resolve (c : L) (v : V c) : Prog L V α → Prog L V α
  | .ret a => .ret a
  | .fail => .fail
  | .read ℓ k => .read ℓ (fun x => resolve c v (k x))
  | .write ℓ x k => .write ℓ x (resolve c v k)
  | .fetch ℓ f k => if h : c = ℓ then resolve c v (k (h ▸ v)) else .fetch ℓ f (fun x => resolve c v (k x))

/-- The changes it makes to `c`. -/
def tickets (c : L) (v : V c) : Prog L V α → Mem L V → List (V c → V c)
  | .ret _, _ => []
  | .fail, _ => []
  | .read ℓ k, m => match m ℓ with
    | some x => tickets c v (k x) m
    | none => []
  | .write ℓ x k, m => match m ℓ with
    | some _ => tickets c v k (Function.update m ℓ (some x))
    | none => []
  | .fetch ℓ f k, m => if h : c = ℓ then (fun y => h ▸ f (h ▸ y)) :: tickets c v (k (h ▸ v)) m
    else match m ℓ with
    | some x => tickets c v (k x) (Function.update m ℓ (some (f x)))
    | none => []

theorem resolve_fetch (c : L) (v : V c) (f : V c → V c) (k : V c → Prog L V α) : resolve c v (.fetch c f k) = resolve c v (k v) := by
  rw [resolve, dif_pos rfl]

theorem tickets_fetch (c : L) (v : V c) (f : V c → V c) (k : V c → Prog L V α) (m : Mem L V) :
    tickets c v (.fetch c f k) m = f :: tickets c v (k v) m := by
  rw [tickets, dif_pos rfl]

theorem resolve_other {c ℓ : L} (h : c ≠ ℓ) (v : V c) (f : V ℓ → V ℓ) (k : V ℓ → Prog L V α) :
    resolve c v (.fetch ℓ f k) = .fetch ℓ f (fun x => resolve c v (k x)) := by
  rw [resolve, dif_neg h]

theorem tickets_other {c ℓ : L} (h : c ≠ ℓ) (v : V c) (f : V ℓ → V ℓ) (k : V ℓ → Prog L V α) (m : Mem L V) :
    tickets c v (.fetch ℓ f k) m = match m ℓ with
    | some x => tickets c v (k x) (Function.update m ℓ (some (f x)))
    | none => [] := by
  rw [tickets, dif_neg h]

/-- A value written elsewhere does not change what is drawn. -/
theorem tickets_update {c : L} {v : V c} {ℓ : L} {w : V ℓ} : ∀ (p : Prog L V α) (m m' : Mem L V) (a : α) (old : V ℓ), m ℓ = some old →
    runs (resolve c v p) m = some (a, m') → (∀ x ∈ accs (resolve c v p) m, ¬ Interferes (.write ℓ w) x) →
    tickets c v p (Function.update m ℓ (some w)) = tickets c v p m := by
  intro p
  induction p with
  | ret a' => intro m m' a old _ _ _; rfl
  | fail => intro m m' a old _ h _; cases h
  | read ℓ' k ih =>
    intro m m' a old ho h hA
    simp only [resolve, runs, accs, tickets] at h hA ⊢
    cases hm : m ℓ' with
    | none => rw [hm] at h; cases h
    | some y =>
      rw [hm] at h hA
      simp only at h hA
      have hne : ℓ' ≠ ℓ := by
        rintro rfl
        refine hA _ List.mem_cons_self ⟨rfl, ?_, ?_⟩
        · rintro ⟨_, _, h, _⟩; cases h
        · rintro ⟨_, _, _, h⟩; cases h
      rw [Function.update_of_ne hne, hm]
      exact ih y m m' a old ho h (fun x hx => hA x (List.mem_cons_of_mem _ hx))
  | write ℓ' y k ih =>
    intro m m' a old ho h hA
    simp only [resolve, runs, accs, tickets] at h hA ⊢
    cases hm : m ℓ' with
    | none => rw [hm] at h; cases h
    | some y' =>
      rw [hm] at h hA
      simp only at h hA
      by_cases hne : ℓ' = ℓ
      · subst hne
        have hw : y = w := by
          by_contra hw
          refine hA _ List.mem_cons_self ⟨rfl, ?_, ?_⟩
          · rintro ⟨_, _, h, _⟩; cases h
          · rintro ⟨ℓ, u, h1, h2⟩
            cases h1; cases h2
            exact hw rfl
        subst hw
        rw [Function.update_self]
        simp only [Function.update_idem]
      · rw [Function.update_of_ne hne, hm]
        simp only
        rw [Function.update_comm (Ne.symm hne)]
        exact ih (Function.update m ℓ' (some y)) m' a old (by rw [Function.update_of_ne (Ne.symm hne), ho]) h
          (fun x hx => hA x (List.mem_cons_of_mem _ hx))
  | fetch ℓ' g k ih =>
    intro m m' a old ho h hA
    by_cases hc : c = ℓ'
    · subst hc
      rw [resolve_fetch] at h hA
      rw [tickets_fetch, tickets_fetch, ih v m m' a old ho h hA]
    · rw [resolve_other hc] at h hA
      rw [tickets_other hc, tickets_other hc]
      simp only [runs, accs] at h hA
      cases hm : m ℓ' with
      | none => rw [hm] at h; cases h
      | some y =>
        rw [hm] at h hA
        simp only at h hA
        have hne : ℓ' ≠ ℓ := by
          rintro rfl
          refine hA _ List.mem_cons_self ⟨rfl, ?_, ?_⟩
          · rintro ⟨_, _, h, _⟩; cases h
          · rintro ⟨_, _, _, h⟩; cases h
        rw [Function.update_of_ne hne, hm]
        simp only
        rw [Function.update_comm (Ne.symm hne)]
        exact ih y (Function.update m ℓ' (some (g y))) m' a old (by rw [Function.update_of_ne (Ne.symm hne), ho]) h
          (fun x hx => hA x (List.mem_cons_of_mem _ hx))

/-- A change of a location that is not used. -/
theorem Good.elsewhere {bad : Access L V → Access L V → Prop} {c : L} {y : V c} : ∀ {ps : List (Prog L V Unit)} {m m' : Mem L V} {old : V c},
    Good bad ps m m' → m c = some old → (∀ p ∈ ps, ∀ a ∈ accs p m, a.loc ≠ c) →
    Good bad ps (Function.update m c (some y)) (Function.update m' c (some y)) := by
  intro ps m m' old h ho hf
  have key : ∀ p ∈ ps, ∀ mp, runs p m = some ((), mp) → runs p (Function.update m c (some y)) = some ((), Function.update mp c (some y)) ∧
      accs p (Function.update m c (some y)) = accs p m := by
    intro p hp mp e
    exact runs_update p m mp () old ho e (fun x hx hi => hf p hp x hx hi.1.symm)
  have ha : ∀ p ∈ ps, accs p (Function.update m c (some y)) = accs p m := by
    intro p hp
    obtain ⟨mp, e⟩ := h.ok p hp
    exact (key p hp mp e).2
  refine ⟨?_, ?_, ?_, ?_⟩
  · intro p hp
    obtain ⟨mp, e⟩ := h.ok p hp
    exact ⟨_, (key p hp mp e).1⟩
  · refine h.apart.imp_of_mem (fun {p q} hp hq hx => ?_)
    rw [ha p hp, ha q hq]; exact hx
  · refine h.fine.imp_of_mem (fun {p q} hp hq hx => ?_)
    rw [ha p hp, ha q hq]; exact hx
  · clear key ha
    induction ps generalizing m old with
    | nil =>
      have := h.seq
      simp only [runSeq, Option.some.injEq] at this ⊢
      rw [this]
    | cons p ps ih =>
      obtain ⟨mp, e, hg, hacc⟩ := h.tail
      have e' := runs_update (v := y) p m mp () old ho e (fun x hx hi => hf p List.mem_cons_self x hx hi.1.symm)
      simp only [runSeq, e'.1]
      have hmp : mp c = some old := by
        rw [runs_frame p m mp () e (fun x hx he => absurd he (hf p List.mem_cons_self x hx)), ho]
      exact ih hg hmp (fun q hq a ha => hf q (List.mem_cons_of_mem _ hq) a (by rw [← hacc q hq]; exact ha))

/-- The number that `i` draws when the iterations draw in the order `ord`. -/
def ticket {X : Type} (g : X → X) (c0 : X) (ord : List Nat) (i : Nat) : X := g^[ord.idxOf i] c0

/-- The iterations `xs` are still to be done; those in `done` have drawn, in this order; those in `W` will draw. -/
structure Waits (c : L) (g : V c → V c) (c0 : V c) (B : List Nat) (M : List Nat → Mem L V) (xs : List (Nat × Prog L V Unit)) (m : Mem L V)
    (done W : List Nat) : Prop where
  ctr : m c = some (g^[done.length] c0)
  perm : (done ++ W).Perm B
  ids : (xs.map Prod.fst).Nodup
  left : ∀ i ∈ W, i ∈ xs.map Prod.fst
  good : ∀ rest, rest.Perm W → Good Races (xs.map (fun x => resolve c (ticket g c0 (done ++ rest) x.1) x.2)) m
    (Function.update (M (done ++ rest)) c (some (g^[done.length] c0)))
  tick : ∀ rest, rest.Perm W → ∀ x ∈ xs, tickets c (ticket g c0 (done ++ rest) x.1) x.2 m = if x.1 ∈ W then [g] else []
  free : ∀ rest, rest.Perm W → ∀ x ∈ xs, ∀ a ∈ accs (resolve c (ticket g c0 (done ++ rest) x.1) x.2) m, a.loc ≠ c

variable {c : L} {g : V c → V c} {c0 : V c} {B : List Nat} {M : List Nat → Mem L V}

theorem Waits.permute {xs ys : List (Nat × Prog L V Unit)} {m : Mem L V} {done W : List Nat} (h : Waits c g c0 B M xs m done W)
    (hp : xs.Perm ys) : Waits c g c0 B M ys m done W where
  ctr := h.ctr
  perm := h.perm
  ids := (hp.map _).nodup_iff.1 h.ids
  left := fun i hi => (hp.map _).mem_iff.1 (h.left i hi)
  good := fun rest hr => (h.good rest hr).perm (hp.map _)
  tick := fun rest hr x hx => h.tick rest hr x (hp.mem_iff.2 hx)
  free := fun rest hr x hx => h.free rest hr x (hp.mem_iff.2 hx)

/-- The accesses still to be made when the drawing goes on in the order `W`. -/
def waitsLeft (c : L) (g : V c → V c) (c0 : V c) (xs : List (Nat × Prog L V Unit)) (m : Mem L V) (done W : List Nat) : Nat :=
  stepsLeft (xs.map (fun x => resolve c (ticket g c0 (done ++ W) x.1) x.2)) m

theorem waitsLeft_perm {xs ys : List (Nat × Prog L V Unit)} (hp : xs.Perm ys) (m : Mem L V) (done W : List Nat) :
    waitsLeft c g c0 xs m done W = waitsLeft c g c0 ys m done W := stepsLeft_perm (hp.map _) m

/-- The end of an iteration. -/
theorem Waits.next {i : Nat} {xs : List (Nat × Prog L V Unit)} {m : Mem L V} {done W : List Nat} (h : Waits c g c0 B M ((i, .ret ()) :: xs) m done W) :
    Waits c g c0 B M xs m done W ∧ waitsLeft c g c0 xs m done W < waitsLeft c g c0 ((i, .ret ()) :: xs) m done W := by
  have hi : i ∉ W := by
    intro hi
    have := h.tick W (List.Perm.refl _) _ List.mem_cons_self
    simp only [tickets, if_pos hi] at this
    cases this
  refine ⟨⟨h.ctr, h.perm, ?_, ?_, ?_, fun rest hr x hx => h.tick rest hr x (List.mem_cons_of_mem _ hx),
    fun rest hr x hx => h.free rest hr x (List.mem_cons_of_mem _ hx)⟩, ?_⟩
  · have := h.ids
    rw [List.map_cons, List.nodup_cons] at this
    exact this.2
  · intro j hj
    have := h.left j hj
    rw [List.map_cons, List.mem_cons] at this
    rcases this with rfl | this
    · exact absurd hj hi
    · exact this
  · intro rest hr
    have hg := h.good rest hr
    rw [List.map_cons] at hg
    obtain ⟨mp, e, hg', _⟩ := Good.tail hg
    simp only [resolve, runs, Option.some.injEq, Prod.mk.injEq, true_and] at e
    subst e
    exact hg'
  · simp [waitsLeft, stepsLeft]

/-- An access other than drawing. -/
theorem Waits.advance {i : Nat} {p p' : Prog L V Unit} {xs : List (Nat × Prog L V Unit)} {m m1 : Mem L V} {done W : List Nat} {x : Access L V}
    (h : Waits c g c0 B M ((i, p) :: xs) m done W)
    (hr : ∀ v, runs (resolve c v p') m1 = runs (resolve c v p) m) (ha : ∀ v, accs (resolve c v p) m = x :: accs (resolve c v p') m1)
    (ht : ∀ v, tickets c v p' m1 = tickets c v p m) (hc : x.loc ≠ c → m1 c = m c)
    (hm : ∀ q : Prog L V Unit, ∀ mq, runs q m = some ((), mq) → (∀ y ∈ accs q m, ¬ Interferes x y) →
      (∃ mq', runs q m1 = some ((), mq')) ∧ accs q m1 = accs q m)
    (hm' : ∀ (q : Prog L V Unit) v, ∀ mq, runs (resolve c v q) m = some ((), mq) → (∀ y ∈ accs (resolve c v q) m, ¬ Interferes x y) →
      tickets c v q m1 = tickets c v q m) :
    Waits c g c0 B M ((i, p') :: xs) m1 done W ∧ waitsLeft c g c0 ((i, p') :: xs) m1 done W < waitsLeft c g c0 ((i, p) :: xs) m done W := by
  have hx : x.loc ≠ c := h.free W (List.Perm.refl _) (i, p) List.mem_cons_self x (by rw [ha]; exact List.mem_cons_self)
  have hapart : ∀ rest, rest.Perm W → ∀ z ∈ xs, ∀ y ∈ accs (resolve c (ticket g c0 (done ++ rest) z.1) z.2) m, ¬ Interferes x y := by
    intro rest hrest z hz y hy
    have := (h.good rest hrest).apart
    rw [List.map_cons, List.pairwise_cons] at this
    exact this.1 _ (List.mem_map.2 ⟨z, hz, rfl⟩) x (by rw [ha]; exact List.mem_cons_self) y hy
  have hok : ∀ rest, rest.Perm W → ∀ z ∈ xs, ∃ mq, runs (resolve c (ticket g c0 (done ++ rest) z.1) z.2) m = some ((), mq) := by
    intro rest hrest z hz
    exact (h.good rest hrest).ok _ (List.mem_map.2 ⟨z, List.mem_cons_of_mem _ hz, rfl⟩)
  have hadv := fun (rest : List Nat) (hrest : rest.Perm W) => Good.advance (p' := resolve c (ticket g c0 (done ++ rest) i) p') (m1 := m1) (x := x)
    (by have := h.good rest hrest; rw [List.map_cons] at this; exact this) (hr _) (ha _) (fun q _ mq e hi => hm q mq e hi)
  refine ⟨⟨by rw [hc hx, h.ctr], h.perm, h.ids, h.left, fun rest hrest => (hadv rest hrest).1, ?_, ?_⟩, (hadv W (List.Perm.refl _)).2⟩
  · intro rest hrest z hz
    rcases List.mem_cons.1 hz with rfl | hz
    · rw [ht]; exact h.tick rest hrest (i, p) List.mem_cons_self
    · obtain ⟨mq, e⟩ := hok rest hrest z hz
      rw [hm' z.2 _ mq e (hapart rest hrest z hz)]
      exact h.tick rest hrest z (List.mem_cons_of_mem _ hz)
  · intro rest hrest z hz a haa
    rcases List.mem_cons.1 hz with rfl | hz
    · exact h.free rest hrest (i, p) List.mem_cons_self a (by rw [ha]; exact List.mem_cons_of_mem _ haa)
    · obtain ⟨mq, e⟩ := hok rest hrest z hz
      rw [(hm _ mq e (hapart rest hrest z hz)).2] at haa
      exact h.free rest hrest z (List.mem_cons_of_mem _ hz) a haa

/-- Drawing. -/
theorem Waits.draws (hB : B.Nodup) {i : Nat} {f : V c → V c} {k : V c → Prog L V Unit} {v : V c} {xs : List (Nat × Prog L V Unit)} {m : Mem L V}
    {done W : List Nat} (h : Waits c g c0 B M ((i, .fetch c f k) :: xs) m done W) (hv : m c = some v) :
    i ∈ W ∧ Waits c g c0 B M ((i, k v) :: xs) (Function.update m c (some (f v))) (done ++ [i]) (W.erase i) := by
  have hi : i ∈ W := by
    by_contra hi
    have := h.tick W (List.Perm.refl _) _ List.mem_cons_self
    simp only [if_neg hi, tickets_fetch] at this
    cases this
  have hf : f = g := by
    have := h.tick W (List.Perm.refl _) _ List.mem_cons_self
    simp only [if_pos hi, tickets_fetch, List.cons.injEq] at this
    exact this.1
  subst hf
  have hv' : v = f^[done.length] c0 := by
    have := h.ctr
    rw [hv, Option.some.injEq] at this
    exact this
  have hnd : (done ++ W).Nodup := h.perm.nodup_iff.2 hB
  have hdi : i ∉ done := fun hd => (List.nodup_append.1 hnd).2.2 i hd i hi rfl
  have hWn : W.Nodup := (List.nodup_append.1 hnd).2.1
  have hids := h.ids
  rw [List.map_cons, List.nodup_cons] at hids
  have hrest : ∀ rest, rest.Perm (W.erase i) → (i :: rest).Perm W := fun rest hr => (List.Perm.cons i hr).trans (List.perm_cons_erase hi).symm
  have hti : ∀ rest, ticket f c0 (done ++ i :: rest) i = v := by
    intro rest
    rw [ticket, List.idxOf_append_of_notMem hdi, List.idxOf_cons_self, Nat.add_zero, hv']
  have hassoc : ∀ rest, done ++ [i] ++ rest = done ++ i :: rest := fun rest => by rw [List.append_assoc]; rfl
  have hfv : f v = f^[(done ++ [i]).length] c0 := by
    rw [List.length_append, List.length_singleton, Function.iterate_succ_apply', ← hv']
  refine ⟨hi, ⟨by rw [Function.update_self, hfv], ?_, h.ids, ?_, ?_, ?_, ?_⟩⟩
  · rw [hassoc]
    exact ((hrest _ (List.Perm.refl _)).append_left done).trans h.perm
  · intro j hj
    exact h.left j (List.mem_of_mem_erase hj)
  · intro rest hr
    rw [hassoc]
    have hg := h.good (i :: rest) (hrest rest hr)
    have := hg.elsewhere (c := c) (y := f v) hv (by
      intro p hp a ha
      obtain ⟨z, hz, rfl⟩ := List.mem_map.1 hp
      exact h.free (i :: rest) (hrest rest hr) z hz a ha)
    rw [Function.update_idem] at this
    rw [← hfv]
    rw [List.map_cons] at this ⊢
    simp only [hti, resolve_fetch] at this ⊢
    exact this
  · intro rest hr z hz
    rw [hassoc]
    have hacc : ∀ z' ∈ (i, .fetch c f k) :: xs, tickets c (ticket f c0 (done ++ i :: rest) z'.1) z'.2 (Function.update m c (some (f v))) =
        tickets c (ticket f c0 (done ++ i :: rest) z'.1) z'.2 m := by
      intro z' hz'
      obtain ⟨mq, e⟩ := (h.good (i :: rest) (hrest rest hr)).ok _ (List.mem_map.2 ⟨z', hz', rfl⟩)
      exact tickets_update z'.2 m mq () v hv e (fun y hy hI => h.free (i :: rest) (hrest rest hr) z' hz' y hy hI.1.symm)
    rcases List.mem_cons.1 hz with rfl | hz
    · have h1 := hacc (i, .fetch c f k) List.mem_cons_self
      rw [h.tick (i :: rest) (hrest rest hr) _ List.mem_cons_self, if_pos hi] at h1
      simp only [hti, tickets_fetch, List.cons.injEq, true_and] at h1 ⊢
      rw [h1, if_neg (fun hx => (hWn.mem_erase_iff.1 hx).1 rfl)]
    · rw [hacc z (List.mem_cons_of_mem _ hz), h.tick (i :: rest) (hrest rest hr) z (List.mem_cons_of_mem _ hz)]
      have hne : z.1 ≠ i := fun e => hids.1 (List.mem_map.2 ⟨z, hz, e⟩)
      simp only [List.mem_erase_of_ne hne]
  · intro rest hr z hz a ha
    rw [hassoc] at ha
    have hacc : ∀ z' ∈ (i, .fetch c f k) :: xs, accs (resolve c (ticket f c0 (done ++ i :: rest) z'.1) z'.2) (Function.update m c (some (f v))) =
        accs (resolve c (ticket f c0 (done ++ i :: rest) z'.1) z'.2) m := by
      intro z' hz'
      obtain ⟨mq, e⟩ := (h.good (i :: rest) (hrest rest hr)).ok _ (List.mem_map.2 ⟨z', hz', rfl⟩)
      exact (runs_update _ m mq () v hv e (fun y hy hI => h.free (i :: rest) (hrest rest hr) z' hz' y hy hI.1.symm)).2
    rcases List.mem_cons.1 hz with rfl | hz
    · refine h.free (i :: rest) (hrest rest hr) _ List.mem_cons_self a ?_
      have h1 := hacc (i, .fetch c f k) List.mem_cons_self
      rw [← h1]
      simp only [hti, resolve_fetch] at ha ⊢
      exact ha
    · rw [hacc z (List.mem_cons_of_mem _ hz)] at ha
      exact h.free (i :: rest) (hrest rest hr) z (List.mem_cons_of_mem _ hz) a ha

theorem perm_pick {β γ : Type} {f : β → γ} {xs : List β} {p : γ} {rest : List γ} (h : (xs.map f).Perm (p :: rest)) :
    ∃ x xs', f x = p ∧ xs.Perm (x :: xs') ∧ (xs'.map f).Perm rest := by
  obtain ⟨x, hx, rfl⟩ := List.mem_map.1 (h.mem_iff.2 (List.mem_cons_self (a := p) (l := rest)))
  obtain ⟨l1, l2, rfl⟩ := List.append_of_mem hx
  have hp : (l1 ++ x :: l2).Perm (x :: (l1 ++ l2)) := List.perm_middle
  refine ⟨x, l1 ++ l2, rfl, hp, ?_⟩
  have := (hp.map f).symm.trans h
  rw [List.map_cons] at this
  exact this.cons_inv

/-- One phase of iterations some of which draw one number each. -/
theorem completes_tickets (hB : B.Nodup) {xs : List (Nat × Prog L V Unit)} {m : Mem L V} (h : Waits c g c0 B M xs m [] B) :
    CompletesTo Races [xs.map Prod.snd] m (fun m' => ∃ ord : List Nat, ord.Perm B ∧ m' = Function.update (M ord) c (some (g^[B.length] c0))) := by
  intro T work hT hw
  obtain ⟨share, later, hwork, hperm, hlater⟩ := hw
  have hlater : ∀ t, later t = [] := hlater
  have hstep : ∀ (cur : Fin T → List (Prog L V Unit)) (mem : Mem L V) (s' : State L V T) (xs : List (Nat × Prog L V Unit)) (done W : List Nat),
      (xs.map Prod.snd).Perm ((List.finRange T).flatMap cur) → Waits c g c0 B M xs mem done W →
      Step ⟨mem, fun t => [cur t]⟩ s' →
      (∃ (cur' : Fin T → List (Prog L V Unit)) (xs' : List (Nat × Prog L V Unit)) (done' W' : List Nat), s'.work = (fun t => [cur' t]) ∧
        (xs'.map Prod.snd).Perm ((List.finRange T).flatMap cur') ∧ Waits c g c0 B M xs' s'.mem done' W' ∧
        (W'.length < W.length ∨ W'.length = W.length ∧ waitsLeft c g c0 xs' s'.mem done' W' < waitsLeft c g c0 xs mem done W)) ∨
      (s'.work = (fun _ => []) ∧ s'.mem = mem ∧ ∀ t, cur t = []) := by
    intro cur mem s' xs done W hx hg hs
    have hupd : ∀ (t : Fin T) (x : List (Prog L V Unit)), Function.update (fun t => [cur t]) t [x] = fun u => [Function.update cur t x u] := by
      intro t x
      funext u
      by_cases hu : u = t
      · subst hu; simp
      · simp [Function.update_of_ne hu]
    cases hs with
    | next t qs rest hs =>
      simp only [List.cons.injEq] at hs
      obtain ⟨hs, rfl⟩ := hs
      obtain ⟨rest, h1, h2⟩ := share_front cur t hs
      obtain ⟨⟨i, p⟩, xs', e, hp, hp'⟩ := perm_pick (hx.trans h1)
      simp only at e
      subst e
      obtain ⟨h3, h4⟩ := (hg.permute hp).next
      left
      refine ⟨Function.update cur t qs, xs', done, W, hupd t qs, hp'.trans (h2 qs).symm, h3, Or.inr ⟨rfl, ?_⟩⟩
      rw [waitsLeft_perm hp]; exact h4
    | read t ℓ v k qs rest hs hm =>
      simp only [List.cons.injEq] at hs hm
      obtain ⟨hs, rfl⟩ := hs
      obtain ⟨rest, h1, h2⟩ := share_front cur t hs
      obtain ⟨⟨i, p⟩, xs', e, hp, hp'⟩ := perm_pick (hx.trans h1)
      simp only at e
      subst e
      left
      have := (hg.permute hp).advance (p' := k v) (m1 := mem) (x := .read ℓ) (fun v => by simp [resolve, runs, hm])
        (fun v => by simp [resolve, accs, hm]) (fun v => by simp [tickets, hm]) (fun _ => rfl) (fun q mq hq _ => ⟨⟨mq, hq⟩, rfl⟩)
        (fun q v mq _ _ => rfl)
      refine ⟨Function.update cur t (k v :: qs), (i, k v) :: xs', done, W, hupd t _, ?_, this.1, Or.inr ⟨rfl, ?_⟩⟩
      · rw [List.map_cons]; exact (List.Perm.cons _ hp').trans (h2 (_ :: qs)).symm
      · rw [waitsLeft_perm hp]; exact this.2
    | write t ℓ v old k qs rest hs hm =>
      simp only [List.cons.injEq] at hs hm
      obtain ⟨hs, rfl⟩ := hs
      obtain ⟨rest, h1, h2⟩ := share_front cur t hs
      obtain ⟨⟨i, p⟩, xs', e, hp, hp'⟩ := perm_pick (hx.trans h1)
      simp only at e
      subst e
      left
      have := (hg.permute hp).advance (p' := k) (m1 := Function.update mem ℓ (some v)) (x := .write ℓ v) (fun v => by simp [resolve, runs, hm])
        (fun v => by simp [resolve, accs, hm]) (fun v => by simp [tickets, hm]) (fun hne => Function.update_of_ne (Ne.symm hne) _ _)
        (fun q mq hq hi => by
          obtain ⟨e1, e2⟩ := runs_update (v := v) q mem mq () old hm hq hi
          exact ⟨⟨_, e1⟩, e2⟩)
        (fun q v' mq hq hi => tickets_update q mem mq () old hm hq hi)
      refine ⟨Function.update cur t (k :: qs), (i, k) :: xs', done, W, hupd t _, ?_, this.1, Or.inr ⟨rfl, ?_⟩⟩
      · rw [List.map_cons]; exact (List.Perm.cons _ hp').trans (h2 (_ :: qs)).symm
      · rw [waitsLeft_perm hp]; exact this.2
    | fetch t ℓ v f k qs rest hs hm =>
      simp only [List.cons.injEq] at hs hm
      obtain ⟨hs, rfl⟩ := hs
      obtain ⟨rest, h1, h2⟩ := share_front cur t hs
      obtain ⟨⟨i, p⟩, xs', e, hp, hp'⟩ := perm_pick (hx.trans h1)
      simp only at e
      subst e
      left
      by_cases hc : c = ℓ
      · subst hc
        obtain ⟨hi, hw⟩ := (hg.permute hp).draws hB hm
        refine ⟨Function.update cur t (k v :: qs), (i, k v) :: xs', done ++ [i], W.erase i, hupd t _, ?_, hw, Or.inl ?_⟩
        · rw [List.map_cons]; exact (List.Perm.cons _ hp').trans (h2 (_ :: qs)).symm
        · rw [List.length_erase_of_mem hi]
          have := List.length_pos_of_mem hi
          omega
      · have := (hg.permute hp).advance (p' := k v) (m1 := Function.update mem ℓ (some (f v))) (x := .fetch ℓ)
          (fun v => by simp [resolve_other hc, runs, hm])
          (fun v => by simp [resolve_other hc, accs, hm]) (fun v => by simp [tickets_other hc, hm]) (fun hne => Function.update_of_ne hc _ _)
          (fun q mq hq hi => by
            obtain ⟨e1, e2⟩ := runs_update' (v := f v) q mem mq () v hm hq hi
            exact ⟨⟨_, e1⟩, e2⟩)
          (fun q v' mq hq hi => tickets_update q mem mq () v hm hq (fun x hx hI => hi x hx ⟨hI.1,
            (by rintro ⟨_, _, h, _⟩; cases h), (by rintro ⟨_, _, h, _⟩; cases h)⟩))
        refine ⟨Function.update cur t (k v :: qs), (i, k v) :: xs', done, W, hupd t _, ?_, this.1, Or.inr ⟨rfl, ?_⟩⟩
        · rw [List.map_cons]; exact (List.Perm.cons _ hp').trans (h2 (_ :: qs)).symm
        · rw [waitsLeft_perm hp]; exact this.2
    | barrier rest h0 hs =>
      right
      simp only [List.cons.injEq] at hs
      refine ⟨?_, rfl, fun t => (hs t).1⟩
      funext t; exact (hs t).2.symm
  have hend : ∀ (cur : Fin T → List (Prog L V Unit)) (mem : Mem L V) (xs : List (Nat × Prog L V Unit)) (done W : List Nat),
      (xs.map Prod.snd).Perm ((List.finRange T).flatMap cur) → Waits c g c0 B M xs mem done W → (∀ t, cur t = []) →
      ∃ ord : List Nat, ord.Perm B ∧ mem = Function.update (M ord) c (some (g^[B.length] c0)) := by
    intro cur mem xs done W hx hg hall
    have : (List.finRange T).flatMap cur = [] := by
      rw [List.flatMap_eq_nil_iff]; exact fun t _ => hall t
    rw [this] at hx
    have hxs : xs = [] := List.map_eq_nil_iff.1 hx.eq_nil
    subst hxs
    have hW : W = [] := by
      cases W with
      | nil => rfl
      | cons i W => exact absurd (hg.left i List.mem_cons_self) (by simp)
    subst hW
    have hp := hg.perm
    rw [List.append_nil] at hp
    refine ⟨done, hp, ?_⟩
    have := (hg.good [] (List.Perm.refl _)).seq
    simp only [List.map_nil, runSeq, Option.some.injEq, List.append_nil] at this
    rw [this, hp.length_eq]
  have hstart : (⟨m, work⟩ : State L V T) = ⟨m, fun t => [share t]⟩ := by
    congr 1
    funext t; rw [hwork, hlater]
  have hdead : ∀ (mem : Mem L V), ¬ ∃ s', Step (⟨mem, fun _ => []⟩ : State L V T) s' := by
    rintro mem ⟨s', hs⟩
    cases hs with
    | next t _ _ hs => cases hs
    | read t _ _ _ _ _ hs => cases hs
    | write t _ _ _ _ _ _ hs => cases hs
    | fetch t _ _ _ _ _ _ hs => cases hs
    | barrier rest h0 hs => cases hs ⟨0, h0⟩
  rw [hstart]
  constructor
  · -- termination
    have : ∀ (w n : Nat) (cur : Fin T → List (Prog L V Unit)) (mem : Mem L V) (xs : List (Nat × Prog L V Unit)) (done W : List Nat),
        W.length = w → waitsLeft c g c0 xs mem done W = n → (xs.map Prod.snd).Perm ((List.finRange T).flatMap cur) →
        Waits c g c0 B M xs mem done W → Acc (fun b a => Step a b) (⟨mem, fun t => [cur t]⟩ : State L V T) := by
      intro w
      induction w using Nat.strong_induction_on with
      | _ w ihw =>
        intro n
        induction n using Nat.strong_induction_on with
        | _ n ih =>
          intro cur mem xs done W hw hn hx hg
          constructor
          intro s' hs
          rcases hstep cur mem s' xs done W hx hg hs with ⟨cur', xs', done', W', e, hx', hg', hlt⟩ | ⟨e, _, _⟩
          · obtain ⟨mem', work'⟩ := s'
            simp only at e hg' hlt
            subst e
            rcases hlt with hlt | ⟨heq, hlt⟩
            · exact ihw _ (hw ▸ hlt) _ cur' mem' xs' done' W' rfl rfl hx' hg'
            · exact ih _ (hn ▸ hlt) cur' mem' xs' done' W' (heq.trans hw) rfl hx' hg'
          · obtain ⟨mem', work'⟩ := s'
            simp only at e
            subst e
            constructor
            intro s'' hs'
            exact absurd ⟨s'', hs'⟩ (hdead mem')
    exact this _ _ share m xs [] B rfl rfl hperm.symm h
  · intro s hs
    have hinv : (∃ (cur : Fin T → List (Prog L V Unit)) (xs : List (Nat × Prog L V Unit)) (done W : List Nat), s.work = (fun t => [cur t]) ∧
        (xs.map Prod.snd).Perm ((List.finRange T).flatMap cur) ∧ Waits c g c0 B M xs s.mem done W) ∨
        (s.work = (fun _ => []) ∧ ∃ ord : List Nat, ord.Perm B ∧ s.mem = Function.update (M ord) c (some (g^[B.length] c0))) := by
      induction hs with
      | refl => exact Or.inl ⟨share, xs, [], B, rfl, hperm.symm, h⟩
      | tail hab hs ih =>
        rename_i b d
        rcases ih with ⟨cur, xs, done, W, e, hx, hg⟩ | ⟨e, _⟩
        · obtain ⟨mem', work'⟩ := b
          simp only at e hg
          subst e
          rcases hstep cur mem' d xs done W hx hg hs with ⟨cur', xs', done', W', e, hx', hg', _⟩ | ⟨e, e', hall⟩
          · exact Or.inl ⟨cur', xs', done', W', e, hx', hg'⟩
          · refine Or.inr ⟨e, ?_⟩
            rw [e']
            exact hend cur mem' xs done W hx hg hall
        · obtain ⟨mem', work'⟩ := b
          simp only at e
          subst e
          exact absurd ⟨d, hs⟩ (hdead mem')
    obtain ⟨mem, wk⟩ := s
    rcases hinv with ⟨cur, xs, done, W, e, hx, hg⟩ | ⟨e, em⟩
    · simp only at e hg
      subst e
      constructor
      · rintro ⟨t, u, a, b, hne, ha, hb, hbad⟩
        simp only [State.nextOf] at ha hb
        cases hct : cur t with
        | nil => rw [hct] at ha; cases ha
        | cons p qs =>
          cases hcu : cur u with
          | nil => rw [hcu] at hb; cases hb
          | cons q rs =>
            rw [hct] at ha
            rw [hcu] at hb
            simp only at ha hb
            obtain ⟨rest, hp⟩ := share_two cur hne hct hcu
            obtain ⟨⟨i, p'⟩, xs', e, hp1, hp2⟩ := perm_pick (hx.trans hp)
            simp only at e
            subst e
            obtain ⟨⟨j, q'⟩, xs'', e, hp3, hp4⟩ := perm_pick hp2
            simp only at e
            subst e
            have hg' := hg.permute (hp1.trans (List.Perm.cons _ hp3))
            have hnext : ∀ (z : Nat × Prog L V Unit) (y : Access L V), z ∈ (i, p') :: (j, q') :: xs'' → z.2.next = some y →
                y = .fetch c ∨ (y ∈ accs (resolve c (ticket g c0 (done ++ W) z.1) z.2) mem ∧ y.loc ≠ c) := by
              intro z y hz hy
              obtain ⟨mq, e⟩ := (hg'.good W (List.Perm.refl _)).ok _ (List.mem_map.2 ⟨z, hz, rfl⟩)
              have hfree := hg'.free W (List.Perm.refl _) z hz
              obtain ⟨zi, zp⟩ := z
              simp only at hy e hfree ⊢
              cases zp with
              | ret _ => cases hy
              | fail => cases hy
              | read ℓ k => exact Or.inr (have h1 := accs_next e (by rw [resolve]; exact hy); ⟨h1, hfree y h1⟩)
              | write ℓ v k => exact Or.inr (have h1 := accs_next e (by rw [resolve]; exact hy); ⟨h1, hfree y h1⟩)
              | fetch ℓ f k =>
                by_cases hc : c = ℓ
                · subst hc
                  simp only [Prog.next, Option.some.injEq] at hy
                  exact Or.inl hy.symm
                · exact Or.inr (have h1 := accs_next e (by rw [resolve_other hc]; exact hy); ⟨h1, hfree y h1⟩)
            have hloc : ∀ {a b : Access L V}, Races a b → a.loc = b.loc := by
              intro a b h
              cases a <;> cases b <;> first | exact h | exact h.elim
            rcases hnext (i, p') a (by simp) ha with rfl | ⟨ha1, ha2⟩
            · rcases hnext (j, q') b (by simp) hb with rfl | ⟨_, hb2⟩
              · exact hbad
              · exact hb2 (hloc hbad).symm
            · rcases hnext (j, q') b (by simp) hb with rfl | ⟨hb1, _⟩
              · exact ha2 (hloc hbad)
              · have := (hg'.good W (List.Perm.refl _)).fine
                rw [List.map_cons, List.pairwise_cons] at this
                exact (this.1 _ (by simp) a ha1 b hb1).1 hbad
      · intro hstuck
        exfalso
        apply hstuck
        by_cases hall : ∀ t, cur t = []
        · exact ⟨_, Step.barrier (fun _ => []) hT (fun t => by simp [hall t])⟩
        · push Not at hall
          obtain ⟨t, ht⟩ := hall
          cases hct : cur t with
          | nil => exact absurd hct ht
          | cons p qs =>
            obtain ⟨rest, h1, _⟩ := share_front cur t hct
            obtain ⟨⟨i, p'⟩, xs', e, hp1, hp2⟩ := perm_pick (hx.trans h1)
            simp only at e
            subst e
            have hg' := hg.permute hp1
            obtain ⟨mp, ep⟩ := (hg'.good W (List.Perm.refl _)).ok _ (List.mem_map.2 ⟨(i, p'), List.mem_cons_self, rfl⟩)
            simp only at ep
            cases p' with
            | ret a => exact ⟨_, Step.next t qs [] (by simp [hct])⟩
            | fail => cases ep
            | read ℓ k =>
              simp only [resolve, runs] at ep
              cases hm : mem ℓ with
              | none => rw [hm] at ep; cases ep
              | some v => exact ⟨_, Step.read t ℓ v k qs [] (by simp [hct]) hm⟩
            | write ℓ v k =>
              simp only [resolve, runs] at ep
              cases hm : mem ℓ with
              | none => rw [hm] at ep; cases ep
              | some old => exact ⟨_, Step.write t ℓ v old k qs [] (by simp [hct]) hm⟩
            | fetch ℓ f k =>
              by_cases hc : c = ℓ
              · subst hc
                exact ⟨_, Step.fetch t c _ f k qs [] (by simp [hct]) hg.ctr⟩
              · rw [resolve_other hc] at ep
                simp only [runs] at ep
                cases hm : mem ℓ with
                | none => rw [hm] at ep; cases ep
                | some v => exact ⟨_, Step.fetch t ℓ v f k qs [] (by simp [hct]) hm⟩
    · simp only at e em
      subst e
      constructor
      · rintro ⟨t, u, a, b, hne, ha, _⟩
        cases ha
      · intro _
        exact ⟨fun t => rfl, em⟩

end HBT.Threads
