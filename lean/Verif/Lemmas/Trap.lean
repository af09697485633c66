import Verif.Lemmas.Merge
import Verif.Lemmas.Layout
import Verif.Props.Mask
import Mathlib.Logic.Relation
/-!
# Helper lemmas: the hosts of subhaloes and the detection of traps
-/
namespace HBT.Spec.Forest
variable {α : Type}

theorem inside_exists_child {a c : α} : ∀ {f : Forest α}, Inside a c f → ∃ p, IsChild p c f ∧ (a = p ∨ Inside a p f)
  | nil, h => h.elim
  | cons b k r, h => by
    rcases h with ⟨rfl, h⟩ | h | h
    · rcases root_or_child h with h | ⟨p, h⟩
      · exact ⟨b, Or.inl ⟨rfl, h⟩, Or.inl rfl⟩
      · exact ⟨p, Or.inr (Or.inl h), Or.inr (Or.inl ⟨rfl, (isChild_mem h).1⟩)⟩
    · obtain ⟨p, h1, h2⟩ := inside_exists_child h
      exact ⟨p, Or.inr (Or.inl h1), h2.imp id (fun h => Or.inr (Or.inl h))⟩
    · obtain ⟨p, h1, h2⟩ := inside_exists_child h
      exact ⟨p, Or.inr (Or.inr h1), h2.imp id (fun h => Or.inr (Or.inr h))⟩

theorem inside_child {a c p : α} {f : Forest α} (hn : f.nodes.Nodup) (h : Inside a c f) (hp : IsChild p c f) :
    a = p ∨ Inside a p f := by
  obtain ⟨q, h1, h2⟩ := inside_exists_child h
  rw [isChild_unique hn hp h1]
  exact h2

theorem root_reach {y : α} : ∀ {f : Forest α}, y ∈ f.nodes → ∃ x ∈ f.roots, x = y ∨ Relation.TransGen (fun a b => IsChild a b f) x y
  | nil, h => by simp at h
  | cons b k r, h => by
    rw [nodes_cons, List.mem_cons, List.mem_append] at h
    rcases h with rfl | h | h
    · exact ⟨y, by simp, Or.inl rfl⟩
    · obtain ⟨x, hx, h1⟩ := root_reach h
      refine ⟨b, by simp, Or.inr ?_⟩
      have hbx : IsChild b x (cons b k r) := Or.inl ⟨rfl, hx⟩
      rcases h1 with rfl | h1
      · exact .single hbx
      · exact .head hbx (Relation.TransGen.mono (fun _ _ h => Or.inr (Or.inl h)) _ _ h1)
    · obtain ⟨x, hx, h1⟩ := root_reach h
      exact ⟨x, by simp [hx], h1.imp id (fun h1 => Relation.TransGen.mono (fun _ _ h => Or.inr (Or.inr h)) _ _ h1)⟩

theorem inside_transGen {a c : α} : ∀ {f : Forest α}, Inside a c f → Relation.TransGen (fun a b => IsChild a b f) a c
  | nil, h => h.elim
  | cons b k r, h => by
    rcases h with ⟨rfl, h⟩ | h | h
    · obtain ⟨x, hx, h1⟩ := root_reach h
      have hbx : IsChild b x (cons b k r) := Or.inl ⟨rfl, hx⟩
      rcases h1 with rfl | h1
      · exact .single hbx
      · exact .head hbx (Relation.TransGen.mono (fun _ _ h => Or.inr (Or.inl h)) _ _ h1)
    · exact Relation.TransGen.mono (fun _ _ h => Or.inr (Or.inl h)) _ _ (inside_transGen h)
    · exact Relation.TransGen.mono (fun _ _ h => Or.inr (Or.inr h)) _ _ (inside_transGen h)

end HBT.Spec.Forest

namespace HBT
open HBT.Model HBT.Spec HBT.Spec.Forest HBT.Props
variable {K D E : Type}

/-! ## Gluing -/

/-- The members of a host before and after gluing. -/
inductive GluedTree (before glued : List (Sub K D)) : List Nat → List Nat → Prop
  | empty : GluedTree before glued [] []
  | tops (c : Nat) (t : List Nat) (k rest : Forest Nat)
      (shows_ : (Forest.cons c k rest).Shows (idxKids before))
      (nodes : (Forest.cons c k rest).nodes.Perm (c :: t))
      (tree : (Forest.cons c (k ++ rest) .nil).Shows (idxKids glued)) :
      GluedTree before glued (c :: t) (c :: rest.roots)

/-- One subhalo before and after gluing. -/
def GluedSub (groups : List (List Nat)) (i : Nat) (s s' : Sub K D) : Prop :=
  ∃ l, s' = s.withNested (s.nested ++ l) ∧ ((∀ g ∈ groups, g.head? ≠ some i) → l = [])

theorem glueHost_ok {subs : List (Sub K D)} {groups heads : List (List Nat)} {h : Nat} {g hs : List Nat}
    (hg : groups[h]? = some g) (hh : heads[h]? = some hs) (hf : GroupForest subs g hs) (hn : g.Nodup) :
    ∃ out, glueHost groups heads h subs = .ok out ∧ out.length = subs.length ∧
      (∀ x, x ∉ g → out[x]? = subs[x]?) ∧ GluedTree subs out g hs ∧
      (∀ x ∈ g, ∀ s, subs[x]? = some s → ∃ s', out[x]? = some s' ∧ GluedSub groups x s s') := by
  cases hf with
  | empty =>
    exact ⟨subs, by rw [glueHost, get_some hg, Outcome.bind_ok], rfl, fun _ _ => rfl, .empty, fun x hx => by cases hx⟩
  | tops c t k rest hsh hnodes =>
    have hnd : (Forest.cons c k rest).nodes.Nodup := hnodes.nodup_iff.2 hn
    obtain ⟨s, h1, h2, h3, h4⟩ := glue_ok hsh hnd
    have hcl : c < subs.length := (List.getElem?_eq_some_iff.1 h1).1
    refine ⟨_, ?_, List.length_set, ?_, .tops c t k rest hsh hnodes h4, ?_⟩
    · rw [glueHost, get_some hg, Outcome.bind_ok]
      simp only
      rw [get_some hh, Outcome.bind_ok, h3]
    · intro x hx
      exact List.getElem?_set_ne (by rintro rfl; simp at hx)
    · intro x hx u hu
      by_cases hxc : x = c
      · subst hxc
        rw [h1] at hu
        cases hu
        refine ⟨_, List.getElem?_set_self hcl, ints rest.roots, ?_, ?_⟩
        · rw [roots_append, ints_append, h2]
        · intro hno
          exact absurd rfl (hno _ (List.mem_of_getElem? hg))
      · exact ⟨u, by rw [List.getElem?_set_ne (Ne.symm hxc), hu], [], by simp [Sub.withNested], fun _ => rfl⟩

theorem glueAll_ok {subs : List (Sub K D)} {nold : Nat} {groups heads : List (List Nat)} {field : List Nat}
    (h : Layout subs nold groups heads field) {order : List Nat} (ho : order.Perm (List.range groups.length)) :
    ∃ out, runAll (glueHost groups heads) order subs = .ok out ∧ out.length = subs.length ∧
      (∀ (i : Nat) (s : Sub K D), subs[i]? = some s → ∃ s', out[i]? = some s' ∧ GluedSub groups i s s') ∧
      List.Forall₂ (GluedTree subs out) groups heads := by
  have hlen : groups.length = heads.length := h.forests.length_eq
  have hmemo : ∀ i ∈ order, i < groups.length := fun i hi => List.mem_range.1 (ho.mem_iff.1 hi)
  have hall : ∀ i (hi : i < groups.length), (groups.getD i []) = groups[i] := fun i hi => by
    simp [List.getD, hi]
  have hallh : ∀ i (hi : i < heads.length), (heads.getD i []) = heads[i] := fun i hi => by
    simp [List.getD, hi]
  have htc : ∀ (g hs : List Nat) (a b a' b' : List (Sub K D)), Agree g a a' → Agree g b b' → GluedTree a b g hs → GluedTree a' b' g hs := by
    intro g hs a b a' b' ha hb ht
    cases ht with
    | empty => exact .empty
    | tops c t k rest h1 h2 h3 =>
      refine .tops c t k rest (shows_congr _ ?_ h1) h2 (shows_congr _ ?_ h3)
      · rintro x hx l ⟨s, hs, e⟩
        exact ⟨s, by rw [ha x (h2.mem_iff.1 hx), hs], e⟩
      · rintro x hx l ⟨s, hs, e⟩
        refine ⟨s, ?_, e⟩
        rw [hb x (h2.mem_iff.1 ?_), hs]
        simpa [nodes_cons, nodes_append] using hx
  obtain ⟨out, e, hl, hf, hq⟩ := runAll_local (act := glueHost groups heads) (fun i => groups.getD i [])
    (Pre := fun i st => st.length = subs.length ∧ Agree (groups.getD i []) subs st)
    (Q := fun i a b => GluedTree a b (groups.getD i []) (heads.getD i []) ∧
      ∀ x ∈ groups.getD i [], ∀ s, a[x]? = some s → ∃ s', b[x]? = some s' ∧ GluedSub groups x s s')
    order subs (ho.nodup_iff.2 List.nodup_range)
    (by
      intro i hi j hj hij x hx
      have hi' := hmemo i hi
      have hj' := hmemo j hj
      rw [hall i hi'] at hx
      rw [hall j hj']
      exact h.disjoint (List.getElem?_eq_getElem hi') (List.getElem?_eq_getElem hj') hij hx)
    (by
      rintro i hi st ⟨hst1, hst2⟩
      have hi' := hmemo i hi
      rw [hall i hi'] at hst2 ⊢
      rw [hallh i (by omega)]
      have hgm : groups[i] ∈ groups := List.getElem_mem hi'
      have hforest := (List.forall₂_iff_get.1 h.forests).2 i hi' (by omega)
      simp only [List.get_eq_getElem] at hforest
      exact glueHost_ok (List.getElem?_eq_getElem hi') (List.getElem?_eq_getElem (hlen ▸ hi'))
        (hforest.congr (subs' := st) (fun x hx s hs => ⟨s, by rw [hst2 x hx, hs], rfl⟩))
        (by
          have := h.nodup
          rw [List.nodup_flatten] at this
          exact this.1 _ hgm))
    (by
      rintro i _ st st' hl hag ⟨h1, h2⟩
      exact ⟨by rw [hl, h1], fun x hx => by rw [hag x hx, h2 x hx]⟩)
    (by
      rintro i _ a b a' b' ha hb ⟨h1, h2⟩
      refine ⟨htc _ _ _ _ _ _ ha hb h1, fun x hx s hs => ?_⟩
      rw [hb x hx]
      exact h2 x hx s (by rw [← ha x hx, hs]))
    (fun i _ => ⟨rfl, fun _ _ => rfl⟩)
  refine ⟨out, e, hl, ?_, ?_⟩
  · intro i s hs
    by_cases hg : i ∈ groups.flatten
    · obtain ⟨g, hg, hi⟩ := List.mem_flatten.1 hg
      obtain ⟨j, hj, rfl⟩ := List.getElem_of_mem hg
      have := (hq j (ho.mem_iff.2 (List.mem_range.2 hj))).2
      rw [hall j hj] at this
      exact this i hi s hs
    · refine ⟨s, ?_, [], by simp [Sub.withNested], fun _ => rfl⟩
      rw [hf i (fun j hj hij => hg ?_), hs]
      rw [hall j (hmemo j hj)] at hij
      exact List.mem_flatten.2 ⟨_, List.getElem_mem _, hij⟩
  · rw [List.forall₂_iff_get]
    refine ⟨hlen, fun i h1 h2 => ?_⟩
    have := (hq i (ho.mem_iff.2 (List.mem_range.2 h1))).1
    rw [hall i h1, hallh i h2] at this
    simpa using this

/-! ## Hosts -/

/-- `hosts` are the hosts according to the nests of `subs`. -/
structure HostsOf (subs : List (Sub K D)) (hosts : List Int) : Prop where
  length : hosts.length = subs.length
  host : ∀ x < subs.length, (hosts[x]? = some (-1) ∧ ∀ (i : Nat) (s : Sub K D), subs[i]? = some s → (x : Int) ∉ s.nested) ∨
    ∃ (i : Nat) (s : Sub K D), hosts[x]? = some (i : Int) ∧ subs[i]? = some s ∧ (x : Int) ∈ s.nested

theorem fillNest_ok (i : Nat) : ∀ (l : List Int) (hosts : List Int), (∀ c ∈ l, 0 ≤ c ∧ c < hosts.length) →
    ∃ out, fillNest i l hosts = .ok out ∧ out.length = hosts.length ∧
      ∀ x < hosts.length, ((x : Int) ∈ l → out[x]? = some (i : Int)) ∧ ((x : Int) ∉ l → out[x]? = hosts[x]?) := by
  intro l
  induction l with
  | nil => intro hosts _; exact ⟨hosts, rfl, rfl, fun x _ => ⟨fun h => (by cases h), fun _ => rfl⟩⟩
  | cons c l ih =>
    intro hosts h
    have hc := h c (by simp)
    have hcl : c.toNat < hosts.length := by omega
    obtain ⟨out, e, h1, h2⟩ := ih (hosts.set c.toNat (i : Int)) (by
      intro d hd
      rw [List.length_set]
      exact h d (by simp [hd]))
    rw [List.length_set] at h1 h2
    refine ⟨out, ?_, h1, ?_⟩
    · rw [fillNest, if_neg (by omega), Outcome.set_of_lt hcl, Outcome.bind_ok, e]
    · intro x hx
      obtain ⟨h3, h4⟩ := h2 x hx
      by_cases hxl : (x : Int) ∈ l
      · exact ⟨fun _ => h3 hxl, fun hn => absurd (List.mem_cons_of_mem _ hxl) hn⟩
      · rw [h4 hxl]
        constructor
        · intro hm
          rw [List.mem_cons] at hm
          have : c.toNat = x := by rcases hm with hm | hm <;> [omega; exact absurd hm hxl]
          rw [this]
          exact List.getElem?_set_self hx
        · intro hm
          rw [List.mem_cons, not_or] at hm
          exact List.getElem?_set_ne (by omega)

theorem fillHosts_ok {subs : List (Sub K D)} (hv : ∀ (i : Nat) (s : Sub K D), subs[i]? = some s → ∀ c ∈ s.nested, 0 ≤ c ∧ c < subs.length)
    {each : List Nat} (he : each.Perm (List.range subs.length)) :
    ∃ hosts, runAll (fillHost subs) each (List.replicate subs.length (-1)) = .ok hosts ∧ HostsOf subs hosts := by
  have key : ∀ (l done : List Nat) (hosts : List Int), (∀ i ∈ l, i < subs.length) → hosts.length = subs.length →
      (∀ x < subs.length, (hosts[x]? = some (-1) ∧ ∀ i ∈ done, ∀ s : Sub K D, subs[i]? = some s → (x : Int) ∉ s.nested) ∨
        ∃ (i : Nat) (s : Sub K D), hosts[x]? = some (i : Int) ∧ subs[i]? = some s ∧ (x : Int) ∈ s.nested) →
      ∃ out, runAll (fillHost subs) l hosts = .ok out ∧ out.length = subs.length ∧
      (∀ x < subs.length, (out[x]? = some (-1) ∧ ∀ i ∈ l ++ done, ∀ s : Sub K D, subs[i]? = some s → (x : Int) ∉ s.nested) ∨
        ∃ (i : Nat) (s : Sub K D), out[x]? = some (i : Int) ∧ subs[i]? = some s ∧ (x : Int) ∈ s.nested) := by
    intro l
    induction l with
    | nil => intro done hosts _ hl h; exact ⟨hosts, rfl, hl, h⟩
    | cons i l ih =>
      intro done hosts hlt hl h
      have hi := hlt i (by simp)
      obtain ⟨o1, e1, l1, f1⟩ := fillNest_ok i subs[i].nested hosts (by
        intro c hc
        rw [hl]
        exact hv i _ (List.getElem?_eq_getElem hi) c hc)
      obtain ⟨out, e2, l2, f2⟩ := ih (i :: done) o1 (fun j hj => hlt j (by simp [hj])) (by omega) (by
        intro x hx
        obtain ⟨h1, h2⟩ := f1 x (by omega)
        by_cases hxn : (x : Int) ∈ subs[i].nested
        · exact Or.inr ⟨i, _, h1 hxn, List.getElem?_eq_getElem hi, hxn⟩
        · rw [h2 hxn]
          refine (h x hx).imp ?_ id
          rintro ⟨h3, h4⟩
          refine ⟨h3, fun j hj s hs => ?_⟩
          rw [List.mem_cons] at hj
          rcases hj with rfl | hj
          · rw [List.getElem?_eq_getElem hi] at hs
            cases hs
            exact hxn
          · exact h4 j hj s hs)
      refine ⟨out, ?_, l2, ?_⟩
      · rw [runAll, fillHost, get_some (List.getElem?_eq_getElem hi), Outcome.bind_ok, e1, Outcome.bind_ok, e2]
      · intro x hx
        refine (f2 x hx).imp ?_ id
        rintro ⟨h1, h2⟩
        refine ⟨h1, fun j hj => h2 j ?_⟩
        simp only [List.cons_append, List.mem_cons, List.mem_append] at hj ⊢
        rcases hj with h | h | h
        · exact Or.inr (Or.inl h)
        · exact Or.inl h
        · exact Or.inr (Or.inr h)
  obtain ⟨out, e, hl, h⟩ := key each [] (List.replicate subs.length (-1)) (fun i hi => List.mem_range.1 (he.mem_iff.1 hi)) (by simp)
    (fun x hx => Or.inl ⟨by simp [hx], fun i hi => (by cases hi)⟩)
  refine ⟨out, e, hl, fun x hx => (h x hx).imp ?_ id⟩
  rintro ⟨h1, h2⟩
  refine ⟨h1, fun i s hs => h2 i ?_ s hs⟩
  rw [List.append_nil]
  exact he.mem_iff.2 (List.mem_range.2 (List.getElem?_eq_some_iff.1 hs).1)

/-! ## Climbing -/

/-- The result of the search for a sink of `i` among the subhaloes `above`, where `below p q` tells that
`q` lies between. -/
def FoundIn (sunk : Nat → Nat → Bool) (subs : List (Sub K D)) (i : Nat) (above : Nat → Prop) (below : Nat → Nat → Prop) :
    Option Nat → Prop
  | none => ∀ q t, above q → subs[q]? = some t → ¬ (1 < t.nbound ∧ sunk i q = true)
  | some p => above p ∧ (∃ t, subs[p]? = some t ∧ 1 < t.nbound ∧ sunk i p = true) ∧
      ∀ q t, above q → below p q → subs[q]? = some t → ¬ (1 < t.nbound ∧ sunk i q = true)

theorem findSink_ok (sunk : Nat → Nat → Bool) {subs : List (Sub K D)} {hosts : List Int} (hh : HostsOf subs hosts)
    {T : Forest Nat} (hn : T.nodes.Nodup) (hsh : T.Shows (idxKids subs))
    (hclosed : ∀ (i : Nat) (s : Sub K D) (x : Nat), subs[i]? = some s → (x : Int) ∈ s.nested → x ∈ T.nodes → i ∈ T.nodes)
    (hlt : ∀ x ∈ T.nodes, x < subs.length) (i : Nat) :
    ∀ (n : Nat) (y : Nat) (l1 l3 : List Nat) (fuel : Nat) (h : Int), l3.length ≤ n → T.post = l1 ++ y :: l3 → n < fuel → hosts[y]? = some h →
      ∃ r, findSink sunk subs hosts i fuel h = .ok r ∧ FoundIn sunk subs i (fun q => Inside q y T) (fun p q => Inside p q T) r := by
  have hpn : T.post.Nodup := (post_perm T).nodup_iff.2 hn
  intro n
  induction n with
  | zero =>
    intro y l1 l3 fuel h hl hpp hfuel hhy
    obtain ⟨fuel, rfl⟩ : ∃ f, fuel = f + 1 := ⟨fuel - 1, by omega⟩
    have hno : ∀ q, ¬ Inside q y T := by
      intro q hq
      obtain ⟨a, b, c, e⟩ := inside_post hq
      have hq3 : q ∈ l3 := by
        have hlen : l1.length = a.length := by
          have h1 : (T.post.idxOf y) = l1.length := by
            rw [hpp]
            rw [hpp, List.nodup_append] at hpn
            rw [List.idxOf_append_of_notMem (fun hm => hpn.2.2 y hm y (by simp) rfl)]
            simp
          have h2 : (T.post.idxOf y) = a.length := by
            rw [e]
            rw [e, List.nodup_append] at hpn
            rw [List.idxOf_append_of_notMem (fun hm => hpn.2.2 y hm y (by simp) rfl)]
            simp
          omega
        have := (List.append_inj (hpp.symm.trans e) hlen).2
        simp only [List.cons.injEq, true_and] at this
        rw [this]
        simp
      have : l3 = [] := List.length_eq_zero_iff.1 (by omega)
      rw [this] at hq3
      cases hq3
    have hy : y ∈ T.nodes := (post_perm T).mem_iff.1 (by rw [hpp]; simp)
    rcases hh.host y (hlt y hy) with ⟨h1, _⟩ | ⟨p, s, h1, h2, h3⟩
    · rw [hhy] at h1
      cases h1
      exact ⟨none, by rw [findSink, if_pos (by decide)], fun q t hq => absurd hq (hno q)⟩
    · have hp := hclosed p s y h2 h3 hy
      obtain ⟨l, hl'⟩ := shows_mem hsh hp
      have hl2 := hl'
      obtain ⟨s', q1, q2⟩ := hl2
      rw [h2] at q1
      cases q1
      have hyl : y ∈ l := by
        rw [q2] at h3
        obtain ⟨z, hz, hze⟩ := List.mem_map.1 h3
        have : z = y := by exact_mod_cast hze
        rwa [this] at hz
      exact absurd (inside_of_child (kids_isChild (idxKids_unique _) hl' hyl hsh hp)) (hno p)
  | succ n ih =>
    intro y l1 l3 fuel h hl hpp hfuel hhy
    obtain ⟨fuel, rfl⟩ : ∃ f, fuel = f + 1 := ⟨fuel - 1, by omega⟩
    have hy : y ∈ T.nodes := (post_perm T).mem_iff.1 (by rw [hpp]; simp)
    rcases hh.host y (hlt y hy) with ⟨h1, hnone⟩ | ⟨p, s, h1, h2, h3⟩
    · rw [hhy] at h1
      cases h1
      refine ⟨none, by rw [findSink, if_pos (by decide)], fun q t hq => ?_⟩
      exfalso
      obtain ⟨p, hp, _⟩ := inside_exists_child hq
      obtain ⟨l, ⟨s, hs, e⟩, hyl⟩ := isChild_kids hsh hp
      exact hnone p s hs (by rw [e]; exact List.mem_map.2 ⟨y, hyl, rfl⟩)
    · rw [hhy] at h1
      cases h1
      have hp := hclosed p s y h2 h3 hy
      obtain ⟨l, hl'⟩ := shows_mem hsh hp
      have hl2 := hl'
      obtain ⟨s', q1, q2⟩ := hl2
      rw [h2] at q1
      cases q1
      have hyl : y ∈ l := by
        rw [q2] at h3
        obtain ⟨z, hz, hze⟩ := List.mem_map.1 h3
        have : z = y := by exact_mod_cast hze
        rwa [this] at hz
      have hchild := kids_isChild (idxKids_unique _) hl' hyl hsh hp
      have hins : Inside p y T := inside_of_child hchild
      rw [findSink, if_neg (by omega), Int.toNat_natCast, get_some h2, Outcome.bind_ok]
      by_cases hgood : 1 < s.nbound ∧ sunk i p = true
      · rw [if_pos hgood]
        refine ⟨some p, rfl, hins, ⟨s, h2, hgood⟩, ?_⟩
        intro q t hq hpq _
        rcases inside_child hn hq hchild with rfl | hqp
        · exact absurd hpq (not_inside_self hn)
        · exact absurd (inside_trans hn hqp hpq) (not_inside_self hn)
      · rw [if_neg hgood]
        obtain ⟨h', hh'⟩ : ∃ h', hosts[p]? = some h' := ⟨_, List.getElem?_eq_getElem (by rw [hh.length]; exact hlt p hp)⟩
        rw [get_some hh', Outcome.bind_ok]
        -- position of the parent
        obtain ⟨a, b, c, e⟩ := inside_post hins
        have hlen : l1.length = a.length := by
          have h1 : (T.post.idxOf y) = l1.length := by
            rw [hpp]
            rw [hpp, List.nodup_append] at hpn
            rw [List.idxOf_append_of_notMem (fun hm => hpn.2.2 y hm y (by simp) rfl)]
            simp
          have h2 : (T.post.idxOf y) = a.length := by
            rw [e]
            rw [e, List.nodup_append] at hpn
            rw [List.idxOf_append_of_notMem (fun hm => hpn.2.2 y hm y (by simp) rfl)]
            simp
          omega
        have hl3 := (List.append_inj (hpp.symm.trans e) hlen).2
        simp only [List.cons.injEq, true_and] at hl3
        obtain ⟨r, e1, e2⟩ := ih p (a ++ y :: b) c fuel h' (by rw [hl3] at hl; simp at hl; omega) (by rw [e]; simp) (by omega) hh'
        refine ⟨r, e1, ?_⟩
        cases r with
        | none =>
          intro q t hq ht
          rcases inside_child hn hq hchild with rfl | hqp
          · rw [h2] at ht
            cases ht
            exact hgood
          · exact e2 q t hqp ht
        | some p' =>
          obtain ⟨b1, b2, b3⟩ := e2
          refine ⟨inside_trans hn b1 hins, b2, fun q t hq hpq ht => ?_⟩
          rcases inside_child hn hq hchild with rfl | hqp
          · rw [h2] at ht
            cases ht
            exact hgood
          · exact b3 q t hqp hpq ht

end HBT
