import Verif.Lemmas.Mask
import Verif.Lemmas.Layout
/-!
# C27: masking
-/
namespace HBT.Props
open HBT HBT.Model HBT.Spec HBT.Spec.Forest
variable {K D : Type}

/-- In a layout, containment stays inside the glued tree of a host. -/
theorem contains_inside {subs : List (Sub K D)} {nold : Nat} {groups heads : List (List Nat)} {field : List Nat}
    (h : Layout subs nold groups heads field) {c : Nat} {t : List Nat} {k rest : Forest Nat} (hg : c :: t ∈ groups)
    (hs : (Forest.cons c k rest).Shows (idxKids subs)) (hn : (Forest.cons c k rest).nodes.Perm (c :: t))
    (hr : (c :: t).filter (isTop subs) = c :: rest.roots) {a b : Nat}
    (hab : Contains subs groups a b) : a ∈ c :: t → Inside a b (Forest.cons c (k ++ rest) .nil) := by
  have hgn : (c :: t).Nodup := by
    have := h.nodup
    rw [List.nodup_flatten] at this
    exact this.1 _ hg
  have hfn : (Forest.cons c k rest).nodes.Nodup := hn.nodup_iff.2 hgn
  have hfn' : (Forest.cons c (k ++ rest) .nil).nodes.Nodup := by
    simpa [nodes_cons, nodes_append] using hfn
  have hins : ∀ x y : Nat, Inside x y (Forest.cons c k rest) → Inside x y (Forest.cons c (k ++ rest) .nil) := by
    have happ : ∀ (f g : Forest Nat) (x y : Nat), Inside x y f ∨ Inside x y g → Inside x y (f ++ g) := by
      intro f
      induction f with
      | nil => intro g x y h; simpa [Inside] using h
      | cons d k' r' _ ihr =>
        intro g x y h
        rw [cons_append]
        rcases h with (h | h | h) | h
        · exact Or.inl h
        · exact Or.inr (Or.inl h)
        · exact Or.inr (Or.inr (ihr g x y (Or.inl h)))
        · exact Or.inr (Or.inr (ihr g x y (Or.inr h)))
    rintro x y (⟨rfl, h⟩ | h | h)
    · exact Or.inl ⟨rfl, by rw [nodes_append]; exact List.mem_append_left _ h⟩
    · exact Or.inr (Or.inl (happ _ _ _ _ (Or.inl h)))
    · exact Or.inr (Or.inl (happ _ _ _ _ (Or.inr h)))
  induction hab with
  | nested a b s hsa hb =>
    intro ha
    have han := hn.mem_iff.2 ha
    obtain ⟨l, hl⟩ := shows_mem hs han
    have hl' := hl
    obtain ⟨s', hs', e⟩ := hl'
    rw [hsa] at hs'
    cases hs'
    rw [e] at hb
    obtain ⟨x, hx, hxe⟩ := List.mem_map.1 hb
    have : x = b := by exact_mod_cast hxe
    subst this
    exact hins _ _ (inside_of_child (kids_isChild (idxKids_unique _) hl hx hs han))
  | top a b g s hg' ha' hb hne hsb hrk =>
    intro ha
    have hgg : g = c :: t := by
      obtain ⟨i, hi⟩ := List.getElem?_of_mem hg'
      obtain ⟨j, hj⟩ := List.getElem?_of_mem hg
      by_cases hij : i = j
      · subst hij
        rw [hi] at hj
        exact Option.some.inj hj
      · exact absurd ha (h.disjoint hi hj hij (List.mem_of_mem_head? ha'))
    subst hgg
    simp only [List.head?_cons, Option.some.injEq] at ha'
    subst ha'
    have hbr : b ∈ c :: rest.roots := by
      rw [← hr, List.mem_filter]
      refine ⟨hb, ?_⟩
      simp [isTop, hsb, hrk]
    rw [List.mem_cons] at hbr
    refine Or.inl ⟨rfl, ?_⟩
    rw [nodes_append]
    exact List.mem_append_right _ (roots_subset _ (hbr.resolve_left hne))
  | trans a b d _ _ ih1 ih2 =>
    intro ha
    have h1 := ih1 ha
    have hb : b ∈ c :: t := by
      refine hn.mem_iff.1 ?_
      have := (inside_mem h1).2
      simpa [nodes_cons, nodes_append] using this
    exact inside_trans hfn' h1 (ih2 hb)

theorem split_nodup {l : List Nat} {x : Nat} (h : x ∈ l) : ∃ pre post, l = pre ++ x :: post :=
  List.append_of_mem h

/-- The iteration of `MaskSubhalos` for one host. -/
theorem maskHost_ok {subs : List (Sub K D)} {groups heads : List (List Nat)} {h : Nat} {g hs : List Nat}
    (hg : groups[h]? = some g) (hh : heads[h]? = some hs) (hf : GroupForest subs g hs) (hn : g.Nodup)
    (contains : Nat → Nat → Prop)
    (hc : ∀ c t k rest, g = c :: t → (Forest.cons c k rest).Shows (idxKids subs) →
      (Forest.cons c k rest).nodes.Perm (c :: t) → hs = c :: rest.roots → ∀ a ∈ g, ∀ b, contains a b →
      Inside a b (Forest.cons c (k ++ rest) .nil))
    {fuel : Nat} (hfuel : subs.length ≤ fuel) (hlt : ∀ i ∈ g, i < subs.length) :
    ∃ out, maskHost fuel groups heads h subs = .ok out ∧ out.length = subs.length ∧
      (∀ x, x ∉ g → out[x]? = subs[x]?) ∧ MaskedHost contains g subs out := by
  cases hf with
  | empty =>
    refine ⟨subs, ?_, rfl, fun _ _ => rfl, ?_⟩
    · rw [maskHost, get_some hg, Outcome.bind_ok]
    · constructor <;> intro i hi <;> cases hi
  | tops c t k rest hsh hnodes =>
    have hnd : (Forest.cons c k rest).nodes.Nodup := hnodes.nodup_iff.2 hn
    obtain ⟨s, h1, h2, h3, h4⟩ := glue_ok hsh hnd
    have hcl : c < subs.length := (List.getElem?_eq_some_iff.1 h1).1
    set glued := subs.set c (s.withNested (ints (k ++ rest).roots)) with hglued
    have hpn : (Forest.cons c (k ++ rest) .nil).post.Perm (c :: t) := by
      refine (post_perm _).trans ?_
      refine List.Perm.trans (List.Perm.of_eq ?_) hnodes
      simp [nodes_cons, nodes_append]
    have hheight : (Forest.cons c (k ++ rest) .nil).height ≤ fuel := by
      refine (height_le _).trans ?_
      rw [← (post_perm _).length_eq, hpn.length_eq]
      have : (c :: t).length ≤ subs.length := by
        have hsub : (c :: t).Subperm (List.range subs.length) :=
          hn.subperm (fun i hi => List.mem_range.2 (hlt i hi))
        simpa using hsub.length_le
      omega
    obtain ⟨e', out, r1, r2, r3, r4⟩ := mask_run (Forest.cons c (k ++ rest) .nil).post [] glued (hpn.nodup_iff.2 hn) (by
      intro i hi
      rw [hglued, List.length_set]
      exact hlt i (hpn.mem_iff.1 hi))
    have hgl : ∀ x, x ≠ c → glued[x]? = subs[x]? := fun x hx => by
      rw [hglued]
      exact List.getElem?_set_ne (Ne.symm hx)
    have hgc : glued[c]? = some (s.withNested (ints (k ++ rest).roots)) := by
      rw [hglued]
      exact List.getElem?_set_self hcl
    -- the central after the recursion
    have hcpost : c ∈ (Forest.cons c (k ++ rest) .nil).post := hpn.mem_iff.2 (by simp)
    obtain ⟨pre0, post0, hpp0⟩ := split_nodup hcpost
    obtain ⟨psc, c1, _, _⟩ := r4 pre0 c post0 _ hpp0 hgc
    have hcol : c < out.length := (List.getElem?_eq_some_iff.1 c1).1
    -- entries of the final list in terms of the first
    have hfin : ∀ (x : Nat) (u : Sub K D) (pre post : List Nat), (Forest.cons c (k ++ rest) .nil).post = pre ++ x :: post →
        subs[x]? = some u →
        ∃ ps, (out.set c ((s.withParticles psc).withNested s.nested))[x]? = some (u.withParticles ps) ∧
          (u.nbound ≤ 1 → ps = u.particles) ∧ (1 < u.nbound → ps.Sublist u.particles ∧ (ps.map Particle.id).Nodup ∧
            ∀ i, i ∈ ps.map Particle.id ↔ i ∈ sourceIds u ∧
              ∀ y ∈ pre, ∀ v, subs[y]? = some v → 1 < v.nbound → i ∉ sourceIds v) := by
      intro x u pre post hpp hu
      have hpre : ∀ i : Int, (∀ y ∈ pre, ∀ v : Sub K D, glued[y]? = some v → 1 < v.nbound → i ∉ sourceIds v) ↔
          ∀ y ∈ pre, ∀ v : Sub K D, subs[y]? = some v → 1 < v.nbound → i ∉ sourceIds v := by
        intro i
        have hcase : ∀ y : Nat, (∀ v : Sub K D, glued[y]? = some v → 1 < v.nbound → i ∉ sourceIds v) ↔
            ∀ v : Sub K D, subs[y]? = some v → 1 < v.nbound → i ∉ sourceIds v := by
          intro y
          by_cases hy : y = c
          · subst hy
            rw [hgc, h1]
            constructor
            · rintro a v hv
              cases hv
              intro h
              exact a (s.withNested (ints (k ++ rest).roots)) rfl h
            · rintro a v hv
              cases hv
              exact a s rfl
          · rw [hgl y hy]
        exact ⟨fun a y hy => (hcase y).1 (a y hy), fun a y hy => (hcase y).2 (a y hy)⟩
      by_cases hx : x = c
      · subst hx
        rw [h1] at hu
        cases hu
        obtain ⟨ps, p1, p2, p3⟩ := r4 pre x post _ hpp hgc
        rw [p1] at c1
        have hpe : ps = psc := congrArg Sub.particles (Option.some.inj c1)
        subst hpe
        refine ⟨ps, by rw [List.getElem?_set_self hcol]; rfl, p2, fun hb => ?_⟩
        obtain ⟨a1, a2, a3⟩ := p3 hb
        refine ⟨a1, a2, fun i => ?_⟩
        rw [a3, hpre]
        simp [sourceIds]
      · obtain ⟨ps, p1, p2, p3⟩ := r4 pre x post u hpp (by rw [hgl x hx, hu])
        refine ⟨ps, by rw [List.getElem?_set_ne (Ne.symm hx), p1], p2, fun hb => ?_⟩
        obtain ⟨a1, a2, a3⟩ := p3 hb
        refine ⟨a1, a2, fun i => ?_⟩
        rw [a3, hpre]
        simp
    refine ⟨out.set c ((s.withParticles psc).withNested s.nested), ?_, by rw [List.length_set, r2, hglued, List.length_set], ?_, ?_⟩
    · rw [maskHost, get_some hg, Outcome.bind_ok]
      simp only
      rw [get_some h1, Outcome.bind_ok, get_some hh, Outcome.bind_ok, h3, Outcome.bind_ok,
        mask_eq h4 hheight, r1, Outcome.bind_ok, unglue, get_some c1, Outcome.bind_ok, set_some c1]
      congr 2
      have : (ints (k ++ rest).roots).take s.nested.length = s.nested := by
        rw [h2, roots_append, ints_append, List.take_left]
      rw [roots_append, ints_append] at this
      simp [Sub.withNested, Sub.withParticles, this]
    · intro x hx
      have hxc : x ≠ c := fun h => hx (by simp [h])
      rw [List.getElem?_set_ne (Ne.symm hxc), r3 x (fun h => hx (hpn.mem_iff.1 h)), hgl x hxc]
    · have hsplit : ∀ i ∈ c :: t, ∃ pre post, (Forest.cons c (k ++ rest) .nil).post = pre ++ i :: post := fun i hi =>
        split_nodup (hpn.mem_iff.2 hi)
      have hsub : ∀ i ∈ c :: t, ∃ u, subs[i]? = some u := fun i hi => ⟨_, List.getElem?_eq_getElem (hlt i hi)⟩
      constructor
      · intro i hi u hu
        obtain ⟨pre, post, hpp⟩ := hsplit i hi
        obtain ⟨ps, p1, p2, p3⟩ := hfin i u pre post hpp hu
        refine ⟨ps, p1, ?_, fun hr => p2 (by unfold Resolved at hr; omega)⟩
        by_cases hb : 1 < u.nbound
        · exact (p3 hb).1
        · rw [p2 (by omega)]
      · intro i hi u' hu' hr
        obtain ⟨u, hu⟩ := hsub i hi
        obtain ⟨pre, post, hpp⟩ := hsplit i hi
        obtain ⟨ps, p1, p2, p3⟩ := hfin i u pre post hpp hu
        rw [p1] at hu'
        cases hu'
        exact (p3 hr).2.1
      · -- two members: one comes first
        have hord : ∀ i j (pre post : List Nat), (Forest.cons c (k ++ rest) .nil).post = pre ++ j :: post → i ∈ pre →
            ∀ s' t', (out.set c ((s.withParticles psc).withNested s.nested))[i]? = some s' →
            (out.set c ((s.withParticles psc).withNested s.nested))[j]? = some t' → Resolved s' → Resolved t' →
            ∀ x ∈ sourceIds t', x ∉ sourceIds s' := by
          intro i j pre post hpp hip s' t' hs' ht' hrs hrt x hx hx'
          have hj : j ∈ c :: t := hpn.mem_iff.1 (by rw [hpp]; simp)
          have hi : i ∈ c :: t := hpn.mem_iff.1 (by rw [hpp]; simp [hip])
          obtain ⟨u, hu⟩ := hsub i hi
          obtain ⟨v, hv⟩ := hsub j hj
          obtain ⟨pre', post', hpp'⟩ := hsplit i hi
          obtain ⟨ps, p1, p2, p3⟩ := hfin i u pre' post' hpp' hu
          obtain ⟨qs, q1, q2, q3⟩ := hfin j v pre post hpp hv
          rw [p1] at hs'
          cases hs'
          rw [q1] at ht'
          cases ht'
          exact (((q3 hrt).2.2 x).1 hx).2 i hip u hu hrs (((p3 hrs).2.2 x).1 hx').1
        intro i hi j hj hij s' t' hs' ht' hrs hrt x hx hx'
        obtain ⟨pre, post, hpp⟩ := hsplit j hj
        have : i ∈ pre ∨ i ∈ post := by
          have hm : i ∈ pre ++ j :: post := by rw [← hpp]; exact hpn.mem_iff.2 hi
          rw [List.mem_append, List.mem_cons] at hm
          rcases hm with h | h | h
          · exact Or.inl h
          · exact absurd h hij
          · exact Or.inr h
        rcases this with h | h
        · exact hord i j pre post hpp h s' t' hs' ht' hrs hrt x hx' hx
        · obtain ⟨p1, p2, rfl⟩ := List.append_of_mem h
          exact hord j i (pre ++ j :: p1) p2 (by rw [hpp]; simp) (by simp) t' s' ht' hs' hrt hrs x hx hx'
      · intro i hi j hj hij v s' hv hs' hrv hrs x hx hx'
        obtain ⟨l1, l2, l3, hpp⟩ := inside_post (hc c t k rest rfl hsh hnodes rfl i hi j hij)
        obtain ⟨u, hu⟩ := hsub i hi
        obtain ⟨ps, p1, p2, p3⟩ := hfin i u (l1 ++ j :: l2) l3 (by rw [hpp]; simp) hu
        rw [p1] at hs'
        cases hs'
        exact (((p3 hrs).2.2 x).1 hx').2 j (by simp) v hv hrv hx
      · intro i hi u hu hru x hx
        -- the first resolved subhalo of the order that has x
        have hfirst : ∀ (l : List Nat), (∀ y ∈ l, y ∈ c :: t) → (∃ y ∈ l, ∃ v, subs[y]? = some v ∧ Resolved v ∧ x ∈ sourceIds v) →
            ∃ pre y post v, l = pre ++ y :: post ∧ subs[y]? = some v ∧ Resolved v ∧ x ∈ sourceIds v ∧
              ∀ z ∈ pre, ∀ w, subs[z]? = some w → 1 < w.nbound → x ∉ sourceIds w := by
          intro l
          induction l with
          | nil => rintro _ ⟨y, hy, _⟩; cases hy
          | cons z l ih =>
            rintro hall ⟨y, hy, v, hv⟩
            by_cases hz : ∃ w, subs[z]? = some w ∧ Resolved w ∧ x ∈ sourceIds w
            · obtain ⟨w, w1, w2, w3⟩ := hz
              exact ⟨[], z, l, w, rfl, w1, w2, w3, fun _ h => by cases h⟩
            · rw [List.mem_cons] at hy
              rcases hy with rfl | hy
              · exact absurd ⟨v, hv⟩ hz
              · obtain ⟨pre, y', post, v', e, a1, a2, a3, a4⟩ := ih (fun w hw => hall w (by simp [hw])) ⟨y, hy, v, hv⟩
                refine ⟨z :: pre, y', post, v', by rw [e]; rfl, a1, a2, a3, ?_⟩
                intro w hw u' hu' hn'
                rw [List.mem_cons] at hw
                rcases hw with rfl | hw
                · exact fun hx' => hz ⟨u', hu', hn', hx'⟩
                · exact a4 w hw u' hu' hn'
        obtain ⟨pre, y, post, v, hpp, a1, a2, a3, a4⟩ := hfirst _ (fun y hy => hpn.mem_iff.1 hy)
          ⟨i, hpn.mem_iff.2 hi, u, hu, hru, hx⟩
        obtain ⟨ps, p1, p2, p3⟩ := hfin y v pre post hpp a1
        refine ⟨y, hpn.mem_iff.1 (by rw [hpp]; simp), _, p1, a2, ?_⟩
        exact ((p3 a2).2.2 x).2 ⟨a3, a4⟩

theorem maskedHost_congr {contains : Nat → Nat → Prop} {g : List Nat} {a b a' b' : List (Sub K D)}
    (ha : Agree g a a') (hb : Agree g b b') (h : MaskedHost contains g a b) : MaskedHost contains g a' b' where
  frame := fun i hi s hs => by rw [ha i hi] at hs; rw [hb i hi]; exact h.frame i hi s hs
  once := fun i hi s hs => by rw [hb i hi] at hs; exact h.once i hi s hs
  exclusive := fun i hi j hj hij s t hs ht => by
    rw [hb i hi] at hs; rw [hb j hj] at ht; exact h.exclusive i hi j hj hij s t hs ht
  priority := fun i hi j hj hij t s ht hs => by
    rw [ha j hj] at ht; rw [hb i hi] at hs; exact h.priority i hi j hj hij t s ht hs
  conserved := fun i hi s hs hr x hx => by
    rw [ha i hi] at hs
    obtain ⟨j, hj, t, h1, h2⟩ := h.conserved i hi s hs hr x hx
    exact ⟨j, hj, t, by rw [hb j hj]; exact h1, h2⟩

/-- `MaskSubhalos` on one process. -/
theorem mask_layout {subs : List (Sub K D)} {nold : Nat} {groups heads : List (List Nat)} {field : List Nat}
    (h : Layout subs nold groups heads field) {fuel : Nat} (hfuel : subs.length ≤ fuel) {order : List Nat}
    (ho : order.Perm (List.range groups.length)) :
    ∃ out, maskSubhalos fuel order groups heads subs = .ok out ∧ out.length = subs.length ∧
      (∀ i, i ∉ groups.flatten → out[i]? = subs[i]?) ∧
      ∀ g ∈ groups, MaskedHost (Contains subs groups) g subs out := by
  have hlen : groups.length = heads.length := h.forests.length_eq
  have hmemo : ∀ i ∈ order, i < groups.length := fun i hi => List.mem_range.1 (ho.mem_iff.1 hi)
  have hall : ∀ i (hi : i < groups.length), (groups.getD i []) = groups[i] := fun i hi => by
    simp [List.getD, hi]
  obtain ⟨out, e, hl, hf, hq⟩ := runAll_local (act := maskHost fuel groups heads) (fun i => groups.getD i [])
    (Pre := fun i st => st.length = subs.length ∧ Agree (groups.getD i []) subs st)
    (Q := fun i a b => MaskedHost (Contains subs groups) (groups.getD i []) a b) order subs (ho.nodup_iff.2 List.nodup_range)
    (by
      intro i hi j hj hij x hx
      have hi' := hmemo i hi
      have hj' := hmemo j hj
      rw [hall i hi'] at hx
      rw [hall j hj']
      exact h.disjoint (List.getElem?_eq_getElem hi') (List.getElem?_eq_getElem hj') hij hx)
    (by
      rintro i hi st ⟨hst1, hst2⟩
      have hi' := hmemo i hi
      rw [hall i hi'] at hst2 ⊢
      have hgm : groups[i] ∈ groups := List.getElem_mem hi'
      have hlt : ∀ x ∈ groups[i], x < subs.length := fun x hx => lt_of_lt_of_le (h.lt hgm hx) h.le
      have hforest := (List.forall₂_iff_get.1 h.forests).2 i hi' (by omega)
      simp only [List.get_eq_getElem] at hforest
      refine maskHost_ok (List.getElem?_eq_getElem hi') (List.getElem?_eq_getElem (hlen ▸ hi'))
        (hforest.congr ?_) ?_ _ ?_ (by omega) (fun x hx => by rw [hst1]; exact hlt x hx)
      · intro x hx s hs
        exact ⟨s, by rw [hst2 x hx, hs], rfl⟩
      · have := h.nodup
        rw [List.nodup_flatten] at this
        exact this.1 _ hgm
      · intro c t k rest hct hsh hno hhd a ha b hab
        rw [hct] at ha hgm
        have hrt : (c :: t).filter (isTop subs) = c :: rest.roots := by
          rw [← hhd, ← hct]
          have := congrArg (fun l => l[i]?) h.heads_
          simp only [List.getElem?_map, List.getElem?_eq_getElem hi', List.getElem?_eq_getElem (hlen ▸ hi'),
            Option.map_some, Option.some.injEq] at this
          exact this.symm
        refine contains_inside h hgm (shows_congr _ ?_ hsh) hno hrt hab ha
        rintro x hx l ⟨s, hs, he⟩
        have hxg : x ∈ groups[i] := by rw [hct]; exact hno.mem_iff.1 hx
        exact ⟨s, by rw [← hst2 x hxg, hs], he⟩)
    (by
      rintro i _ st st' hl hag ⟨h1, h2⟩
      exact ⟨by rw [hl, h1], fun x hx => by rw [hag x hx, h2 x hx]⟩)
    (by
      intro i _ a b a' b' ha hb hm
      exact maskedHost_congr ha hb hm)
    (fun i _ => ⟨rfl, fun _ _ => rfl⟩)
  refine ⟨out, e, hl, ?_, ?_⟩
  · intro x hx
    refine hf x (fun i hi hxi => hx ?_)
    rw [hall i (hmemo i hi)] at hxi
    exact List.mem_flatten.2 ⟨_, List.getElem_mem (hmemo i hi), hxi⟩
  · intro g hg
    obtain ⟨i, hi, rfl⟩ := List.getElem_of_mem hg
    have := hq i (ho.mem_iff.2 (List.mem_range.2 hi))
    rwa [hall i hi] at this

/-- C27. In every reachable situation (any history, any number of processes, any hosts, births and
orders of the parallel loop) masking succeeds on each process; for each host, with "contains"
meaning nesting (the central contains all other members): afterwards no particle is in the sources of
two resolved members or twice in one, a contained resolved subhalo keeps the particle against those
containing it, every particle of a resolved member is still in the source of a resolved member,
nothing but source particles of resolved members is touched. -/
theorem C27_mask [LinearOrder K] {P : Nat} {chunk : Nat} (hc : 0 < chunk)
    {sortKeys : List (Int × Int) → List (Int × Int)}
    {bsearch : Int → List (Int × Int) → Option (Int × Int)} (hs : SortSpec sortKeys) (hb : BsearchSpec bsearch)
    {sortMass : List (Sub K D) → List Nat → List Nat} (hsort : SortsByMass sortMass)
    {Q : Nat} {prev : Fin Q → List (Sub K D)} (hprev : History chunk sortKeys bsearch sortMass prev)
    (old new : Fin P → List (Sub K D)) (haloIds : Fin P → List Int)
    (groups : Fin P → List (List Nat)) (field order : Fin P → List Nat)
    (harr : Arrival prev old new haloIds groups field order)
    (res : Fin P → List (Sub K D) × List (List Nat))
    (hres : nestSubhalos chunk sortKeys bsearch order groups field (fun r => old r ++ new r) = .ok res)
    (r : Fin P) (haloOrder : List Nat) (ho : haloOrder.Perm (List.range (groups r).length)) :
    ∃ out, maskSubhalos (res r).1.length haloOrder (groups r) (res r).2 (res r).1 = .ok out ∧
      out.length = (res r).1.length ∧
      (∀ i, i ∉ (groups r).flatten → out[i]? = (res r).1[i]?) ∧
      ∀ g ∈ groups r, MaskedHost (Contains (res r).1 (groups r)) g (res r).1 out := by
  obtain ⟨⟨G, hG⟩, _, _⟩ := history_sound hc hs hb hsort hprev
  exact mask_layout (layout_step chunk hc hs hb harr hG hres r).2 (le_refl _) ho

/-! A concrete case: the second snapshot of `exHistory2`, with particles; the second track is the
central, all three have particle 7, and the central has particle 5 twice. -/

def exMaskParticles (r : Fin 2) : List (List Int) := if r = 0 then [[1, 7, 2], [5, 7, 2, 6, 5], [7, 3]] else []
def exMaskOld : S2 := fun r =>
  (exOld2 r).zipWith (fun s l => s.withParticles (l.map (fun i => ⟨i, ()⟩))) (exMaskParticles r)
def exMaskNest := exNest (pick [2, 0, 1] []) (pick [[1, 0, 2]] []) (pick [] []) (fun r => exMaskOld r ++ exS0 r)
def exMaskRes := okOr exMaskNest (fun _ => ([], []))

example : ∃ out, maskSubhalos (exMaskRes 0).1.length [0] [[1, 0, 2]] (exMaskRes 0).2 (exMaskRes 0).1 = .ok out ∧
    out.length = (exMaskRes 0).1.length ∧ (∀ i : Nat, i ∉ [[1, 0, 2]].flatten → out[i]? = (exMaskRes 0).1[i]?) ∧
    ∀ g ∈ [[1, 0, 2]], MaskedHost (Contains (exMaskRes 0).1 [[1, 0, 2]]) g (exMaskRes 0).1 out :=
  C27_mask (chunk := 8) (by decide) exKeySort_spec exampleBsearch_spec exMassSort_spec exHistory1 exMaskOld exS0
    (pick [200] []) (pick [[1, 0, 2]] []) (pick [] []) (pick [2, 0, 1] [])
    (arrival_of_checks _ _ _ _ _ _ _ (by decide +kernel) (by decide +kernel) (by decide +kernel) (by decide +kernel)
      (by decide +kernel) (by decide +kernel) (by decide +kernel) (by decide +kernel) (by decide +kernel))
    exMaskRes (ok_okOr _ (by decide +kernel)) 0 [0] (List.Perm.refl _)

example : (okOr (maskSubhalos 3 [0] [[1, 0, 2]] (exMaskRes 0).2 (exMaskRes 0).1) []).map sourceIds
    = [[1, 7, 2], [5, 6], [3]] := by decide +kernel

end HBT.Props
