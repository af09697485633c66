import Verif.Model.Mask
import Verif.Lemmas.Nest
/-!
# Helper lemmas: recursion over nests, loops over hosts
-/
namespace HBT.Spec.Forest
variable {α : Type}

/-- Nodes, children before parents. -/
def post : Forest α → List α
  | nil => []
  | cons a k r => k.post ++ (a :: r.post)

theorem post_perm : ∀ f : Forest α, f.post.Perm f.nodes
  | nil => List.Perm.refl _
  | cons a k r => by
    rw [post, nodes_cons]
    refine List.perm_middle.trans (List.Perm.cons a ?_)
    exact (post_perm k).append (post_perm r)

/-- `c` is strictly inside the tree of `a`. -/
def Inside (a c : α) : Forest α → Prop
  | nil => False
  | cons b k r => (b = a ∧ c ∈ k.nodes) ∨ Inside a c k ∨ Inside a c r

theorem inside_mem {a c : α} : ∀ {f : Forest α}, Inside a c f → a ∈ f.nodes ∧ c ∈ f.nodes
  | nil, h => h.elim
  | cons b k r, h => by
    rw [nodes_cons]
    simp only [List.mem_cons, List.mem_append]
    rcases h with ⟨rfl, h⟩ | h | h
    · exact ⟨Or.inl rfl, Or.inr (Or.inl h)⟩
    · have := inside_mem h
      exact ⟨Or.inr (Or.inl this.1), Or.inr (Or.inl this.2)⟩
    · have := inside_mem h
      exact ⟨Or.inr (Or.inr this.1), Or.inr (Or.inr this.2)⟩

theorem inside_of_child {a c : α} : ∀ {f : Forest α}, IsChild a c f → Inside a c f
  | nil, h => h.elim
  | cons b k r, h => by
    rcases h with ⟨rfl, h⟩ | h | h
    · exact Or.inl ⟨rfl, roots_subset k h⟩
    · exact Or.inr (Or.inl (inside_of_child h))
    · exact Or.inr (Or.inr (inside_of_child h))

theorem inside_trans {a b c : α} : ∀ {f : Forest α}, f.nodes.Nodup → Inside a b f → Inside b c f → Inside a c f
  | nil, _, h, _ => h.elim
  | cons d k r, hn, h1, h2 => by
    rw [nodes_cons, List.nodup_cons, List.nodup_append] at hn
    obtain ⟨hd, hk, hr, hdis⟩ := hn
    rw [List.mem_append] at hd
    rcases h1 with ⟨rfl, h1⟩ | h1 | h1
    · rcases h2 with ⟨rfl, _⟩ | h2 | h2
      · exact absurd (Or.inl h1) hd
      · exact Or.inl ⟨rfl, (inside_mem h2).2⟩
      · exact absurd rfl (hdis b h1 b (inside_mem h2).1)
    · rcases h2 with ⟨rfl, _⟩ | h2 | h2
      · exact absurd (Or.inl (inside_mem h1).2) hd
      · exact Or.inr (Or.inl (inside_trans hk h1 h2))
      · exact absurd rfl (hdis b (inside_mem h1).2 b (inside_mem h2).1)
    · rcases h2 with ⟨rfl, _⟩ | h2 | h2
      · exact absurd (Or.inr (inside_mem h1).2) hd
      · exact absurd rfl (hdis b (inside_mem h2).1 b (inside_mem h1).2)
      · exact Or.inr (Or.inr (inside_trans hr h1 h2))

/-- What is inside comes first in `post`. -/
theorem inside_post {a c : α} : ∀ {f : Forest α}, Inside a c f → ∃ l1 l2 l3, f.post = l1 ++ c :: (l2 ++ a :: l3)
  | nil, h => h.elim
  | cons b k r, h => by
    rw [post]
    rcases h with ⟨rfl, h⟩ | h | h
    · obtain ⟨l1, l2, e⟩ := List.append_of_mem ((post_perm k).mem_iff.2 h)
      exact ⟨l1, l2, r.post, by rw [e]; simp⟩
    · obtain ⟨l1, l2, l3, e⟩ := inside_post h
      exact ⟨l1, l2, l3 ++ b :: r.post, by rw [e]; simp⟩
    · obtain ⟨l1, l2, l3, e⟩ := inside_post h
      exact ⟨k.post ++ b :: l1, l2, l3, by rw [e]; simp⟩

theorem not_inside_self {a : α} : ∀ {f : Forest α}, f.nodes.Nodup → ¬ Inside a a f
  | nil, _, h => h.elim
  | cons b k r, hn, h => by
    rw [nodes_cons, List.nodup_cons, List.nodup_append] at hn
    obtain ⟨hd, hk, hr, hdis⟩ := hn
    rw [List.mem_append] at hd
    rcases h with ⟨rfl, h⟩ | h | h
    · exact hd (Or.inl h)
    · exact not_inside_self hk h
    · exact not_inside_self hr h

end HBT.Spec.Forest

namespace HBT
open HBT.Model HBT.Spec HBT.Spec.Forest
variable {K D σ : Type}

theorem runAll_append (act : Nat → σ → Outcome σ) : ∀ (l l' : List Nat) (st : σ),
    runAll act (l ++ l') st = (runAll act l st >>= fun st => runAll act l' st)
  | [], _, _ => rfl
  | i :: l, l', st => by
    rw [List.cons_append, runAll, runAll]
    cases h : act i st with
    | ok st' => simp only [Outcome.bind_ok]; exact runAll_append act l l' st'
    | ub => rfl
    | abort => rfl
    | diverge => rfl

/-- A visit whose only effect is the last action of each subhalo runs these actions, children first. -/
theorem visitKids_eq_runAll {nest : Nat → σ → Outcome (List Int)} {leave : Nat → σ → Outcome σ}
    (I : σ → Prop) (hI : ∀ id st st', I st → leave id st = .ok st' → I st') :
    ∀ (f : Forest Nat) (fuel : Nat) (st : σ), f.height ≤ fuel → I st →
      f.Shows (fun a l => ∀ st, I st → nest a st = .ok (ints l)) →
      visitKids (visit nest (fun _ _ => Outcome.ok ()) (fun _ _ st => .ok st) (fun _ => leave) fuel)
        (fun st => .ok) (ints f.roots) st = runAll leave f.post st ∧
      ∀ st', runAll leave f.post st = .ok st' → I st'
  | .nil, _, st, _, h, _ => ⟨rfl, fun st' e => by cases e; exact h⟩
  | .cons a k r, 0, _, hh, _, _ => by simp [Forest.height] at hh
  | .cons a k r, fuel + 1, st, hh, hst, hs => by
    simp only [Forest.height] at hh
    obtain ⟨hka, hk, hr⟩ := hs
    obtain ⟨e1, p1⟩ := visitKids_eq_runAll I hI k fuel st (by omega) hst hk
    rw [roots_cons, ints_cons, visitKids, if_neg (by omega), Int.toNat_natCast, visit]
    rw [Outcome.bind_ok, hka st hst, Outcome.bind_ok, e1, post, runAll_append]
    cases hk1 : runAll leave k.post st with
    | ok st1 =>
      simp only [Outcome.bind_ok, runAll]
      have hst1 := p1 st1 hk1
      cases hl : leave a st1 with
      | ok st2 =>
        simp only [Outcome.bind_ok]
        exact visitKids_eq_runAll I hI r (fuel + 1) st2 (by omega) (hI a st1 st2 hst1 hl) hr
      | ub => exact ⟨rfl, fun _ h => by cases h⟩
      | abort => exact ⟨rfl, fun _ h => by cases h⟩
      | diverge => exact ⟨rfl, fun _ h => by cases h⟩
    | ub => exact ⟨rfl, fun _ h => by cases h⟩
    | abort => exact ⟨rfl, fun _ h => by cases h⟩
    | diverge => exact ⟨rfl, fun _ h => by cases h⟩

/-- Two states agree on the subhaloes `dom`. -/
def Agree {α : Type} (dom : List Nat) (st st' : List α) : Prop := ∀ x ∈ dom, st'[x]? = st[x]?

/-- Iterations that touch disjoint sets of subhaloes can be understood one by one. -/
theorem runAll_local {α : Type} {act : Nat → List α → Outcome (List α)} (dom : Nat → List Nat)
    {Pre : Nat → List α → Prop} {Q : Nat → List α → List α → Prop} :
    ∀ (order : List Nat) (st : List α), order.Nodup →
    (∀ i ∈ order, ∀ j ∈ order, i ≠ j → ∀ x ∈ dom i, x ∉ dom j) →
    (∀ i ∈ order, ∀ st, Pre i st → ∃ st', act i st = .ok st' ∧ st'.length = st.length ∧
      (∀ x, x ∉ dom i → st'[x]? = st[x]?) ∧ Q i st st') →
    (∀ i ∈ order, ∀ st st', st'.length = st.length → Agree (dom i) st st' → Pre i st → Pre i st') →
    (∀ i ∈ order, ∀ a b a' b', Agree (dom i) a a' → Agree (dom i) b b' → Q i a b → Q i a' b') →
    (∀ i ∈ order, Pre i st) →
    ∃ st', runAll act order st = .ok st' ∧ st'.length = st.length ∧
      (∀ x, (∀ i ∈ order, x ∉ dom i) → st'[x]? = st[x]?) ∧ ∀ i ∈ order, Q i st st' := by
  intro order
  induction order with
  | nil => intro st _ _ _ _ _ _; exact ⟨st, rfl, rfl, fun _ _ => rfl, fun i hi => by cases hi⟩
  | cons i is ih =>
    intro st hnd hdis hstep hP hQ h0
    rw [List.nodup_cons] at hnd
    obtain ⟨st1, e1, l1, f1, q1⟩ := hstep i (by simp) st (h0 i (by simp))
    have hag : ∀ j ∈ is, Agree (dom j) st st1 := by
      intro j hj x hx
      exact f1 x (fun hxi => hdis i (by simp) j (by simp [hj]) (by rintro rfl; exact hnd.1 hj) x hxi hx)
    obtain ⟨st2, e2, l2, f2, q2⟩ := ih st1 hnd.2
      (fun a ha b hb => hdis a (by simp [ha]) b (by simp [hb]))
      (fun a ha => hstep a (by simp [ha])) (fun a ha => hP a (by simp [ha])) (fun a ha => hQ a (by simp [ha]))
      (fun a ha => hP a (by simp [ha]) st st1 l1 (hag a ha) (h0 a (by simp [ha])))
    refine ⟨st2, ?_, by rw [l2, l1], ?_, ?_⟩
    · rw [runAll, e1, Outcome.bind_ok, e2]
    · intro x hx
      rw [f2 x (fun a ha => hx a (by simp [ha])), f1 x (hx i (by simp))]
    · intro j hj
      rw [List.mem_cons] at hj
      rcases hj with rfl | hj
      · refine hQ j (by simp) st st1 st st2 (fun x _ => rfl) ?_ q1
        intro x hx
        exact f2 x (fun a ha hxa => hdis j (by simp) a (by simp [ha]) (by rintro rfl; exact hnd.1 ha) x hx hxa)
      · refine hQ j (by simp [hj]) st1 st2 st st2 ?_ (fun x _ => rfl) (q2 j hj)
        intro x hx
        exact (hag j hj x hx).symm

/-! ## The groups of one process -/

/-- The members `g` of one host and its heads `hs`: the central comes first in both, and the nests form
one tree per head. -/
inductive GroupForest (subs : List (Sub K D)) : List Nat → List Nat → Prop
  | empty : GroupForest subs [] []
  | tops (c : Nat) (t : List Nat) (k rest : Forest Nat)
      (shows_ : (Forest.cons c k rest).Shows (idxKids subs))
      (nodes : (Forest.cons c k rest).nodes.Perm (c :: t)) :
      GroupForest subs (c :: t) (c :: rest.roots)

theorem GroupForest.congr {subs subs' : List (Sub K D)} {g hs : List Nat} (h : GroupForest subs g hs)
    (hk : ∀ i ∈ g, ∀ s, subs[i]? = some s → ∃ s', subs'[i]? = some s' ∧ s'.nested = s.nested) :
    GroupForest subs' g hs := by
  cases h with
  | empty => exact .empty
  | tops c t k rest h1 h2 =>
    refine .tops c t k rest (shows_congr _ ?_ h1) h2
    rintro a ha l ⟨s, hs, e⟩
    obtain ⟨s', h', e'⟩ := hk a (h2.mem_iff.1 ha) s hs
    exact ⟨s', h', by rw [e', e]⟩

/-- Gluing the other heads to the central makes one tree. -/
theorem glue_ok {subs : List (Sub K D)} {c : Nat} {k rest : Forest Nat}
    (hs : (Forest.cons c k rest).Shows (idxKids subs)) (hn : (Forest.cons c k rest).nodes.Nodup) :
    ∃ s, subs[c]? = some s ∧ s.nested = ints k.roots ∧
      glue c (c :: rest.roots) subs = .ok (subs.set c (s.withNested (ints (k ++ rest).roots))) ∧
      (Forest.cons c (k ++ rest) .nil).Shows (idxKids (subs.set c (s.withNested (ints (k ++ rest).roots)))) := by
  obtain ⟨⟨s, h1, h2⟩, hk, hr⟩ := hs
  have hc : c < subs.length := (List.getElem?_eq_some_iff.1 h1).1
  rw [nodes_cons, List.nodup_cons, List.mem_append] at hn
  refine ⟨s, h1, h2, ?_, ?_⟩
  · rw [glue, get_some h1, Outcome.bind_ok, set_some h1, h2, roots_append, ints_append]
    rfl
  · refine ⟨⟨s.withNested (ints (k ++ rest).roots), List.getElem?_set_self hc, rfl⟩, ?_, trivial⟩
    rw [shows_append]
    have hset : ∀ (f : Forest Nat), (∀ x ∈ f.nodes, x ≠ c) → f.Shows (idxKids subs) →
        f.Shows (idxKids (subs.set c (s.withNested (ints (k ++ rest).roots)))) := by
      intro f hf hfs
      refine shows_congr _ ?_ hfs
      rintro a ha l ⟨u, hu, e⟩
      exact ⟨u, by rw [List.getElem?_set_ne (Ne.symm (hf a ha))]; exact hu, e⟩
    exact ⟨hset k (fun x hx h => hn.1 (Or.inl (h ▸ hx))) hk, hset rest (fun x hx h => hn.1 (Or.inr (h ▸ hx))) hr⟩

end HBT
