import Verif.Lemmas.LinkedParallel
/-!
# Friends of friends
-/
set_option linter.unusedSectionVars false
namespace HBT.LL
open HBT.Model HBT.Spec HBT.Props

/-- Particles not tagged yet. -/
def untagged (tags : List Int) : List Nat :=
  (List.range tags.length).filter fun p => decide (∃ t ∈ tags[p]?, t < 0)

theorem mem_untagged (tags : List Int) (p : Nat) : p ∈ untagged tags ↔ ∃ t, tags[p]? = some t ∧ t < 0 := by
  unfold untagged
  simp only [List.mem_filter, List.mem_range, decide_eq_true_eq, Option.mem_def]
  constructor
  · rintro ⟨_, h⟩; exact h
  · rintro ⟨t, h, h0⟩
    exact ⟨(List.getElem?_eq_some_iff.1 h).1, t, h, h0⟩

theorem nodup_untagged (tags : List Int) : (untagged tags).Nodup := List.nodup_range.filter _

/-- `tags'` is `tags` with the untagged particles `S` tagged by `g`. -/
structure Tagged (g : Int) (tags tags' : List Int) (S : List Nat) : Prop where
  len : tags'.length = tags.length
  nodup : S.Nodup
  was : ∀ q ∈ S, ∃ t, tags[q]? = some t ∧ t < 0
  now : ∀ q ∈ S, tags'[q]? = some g
  rest : ∀ q, q ∉ S → tags'[q]? = tags[q]?

theorem Tagged.refl (g : Int) (tags : List Int) : Tagged g tags tags [] :=
  ⟨rfl, List.nodup_nil, by simp, by simp, fun _ _ => rfl⟩

theorem Tagged.trans {g : Int} (hg : 0 ≤ g) {a b c : List Int} {S S' : List Nat} (h : Tagged g a b S)
    (h' : Tagged g b c S') : Tagged g a c (S ++ S') := by
  have hdis : ∀ q ∈ S', q ∉ S := by
    intro q hq hq'
    obtain ⟨t, ht, ht0⟩ := h'.was q hq
    rw [h.now q hq'] at ht
    cases ht
    omega
  refine ⟨h'.len.trans h.len, ?_, ?_, ?_, ?_⟩
  · rw [List.nodup_append]
    exact ⟨h.nodup, h'.nodup, fun x hx y hy e => hdis y hy (e ▸ hx)⟩
  · intro q hq
    rcases List.mem_append.1 hq with hq | hq
    · exact h.was q hq
    · rw [← h.rest q (hdis q hq)]; exact h'.was q hq
  · intro q hq
    by_cases hq' : q ∈ S'
    · exact h'.now q hq'
    · rw [h'.rest q hq']
      exact h.now q ((List.mem_append.1 hq).resolve_right hq')
  · intro q hq
    simp only [List.mem_append, not_or] at hq
    rw [h'.rest q hq.2, h.rest q hq.1]

theorem Tagged.untagged_len {g : Int} (hg : 0 ≤ g) {a b : List Int} {S : List Nat} (h : Tagged g a b S) :
    (untagged b).length + S.length = (untagged a).length := by
  have hp : (untagged b ++ S).Perm (untagged a) := by
    rw [List.perm_ext_iff_of_nodup]
    · intro q
      rw [List.mem_append, mem_untagged, mem_untagged]
      constructor
      · rintro (⟨t, ht, h0⟩ | hq)
        · by_cases hq : q ∈ S
          · exact h.was q hq
          · exact ⟨t, by rw [← h.rest q hq]; exact ht, h0⟩
        · exact h.was q hq
      · rintro ⟨t, ht, h0⟩
        by_cases hq : q ∈ S
        · exact Or.inr hq
        · exact Or.inl ⟨t, by rw [h.rest q hq]; exact ht, h0⟩
    · rw [List.nodup_append]
      refine ⟨nodup_untagged _, h.nodup, ?_⟩
      intro x hx y hy e
      subst e
      obtain ⟨t, ht, h0⟩ := (mem_untagged _ _).1 hx
      rw [h.now x hy] at ht
      cases ht
      omega
    · exact nodup_untagged _
  have := hp.length_eq
  simpa using this

/-- Tagged particles stay tagged. -/
theorem Tagged.keeps {g : Int} (hg : 0 ≤ g) {a b : List Int} {S : List Nat} (h : Tagged g a b S) (q : Nat)
    (hq : ∃ t, a[q]? = some t ∧ 0 ≤ t) : ∃ t, b[q]? = some t ∧ 0 ≤ t := by
  by_cases hS : q ∈ S
  · exact ⟨g, h.now q hS, hg⟩
  · rw [h.rest q hS]; exact hq

section Field
variable {K : Type} [Field K] [LinearOrder K] [IsStrictOrderedRing K] [FloorRing K]

/-- The code finds a link from `p` to `q`. -/
def Adj (ll : LinkedCells K) (L b : K) (p q : Nat) : Prop :=
  ∃ x y, ll.pts[p]? = some x ∧ ll.pts[q]? = some y ∧ ∃ s, sphereTest ll.grid.periodic L b x y = some s

theorem tagScan_ok (ll : LinkedCells K) (L b : K) (c : Fin 3 → K) (g : Int) (hg : 0 ≤ g) (ps : List Nat) :
    ∀ (tags : List Int) (friends : List Nat), tags.length = ll.pts.length → (∀ p ∈ ps, p < ll.pts.length) →
    ∃ tags' S, tagScan ll L b c g ps (tags, friends) = .ok (tags', friends ++ S) ∧ Tagged g tags tags' S ∧
      (∀ q ∈ S, ∃ y, ll.pts[q]? = some y ∧ ∃ s, sphereTest ll.grid.periodic L b c y = some s) ∧
      ∀ q ∈ ps, (∃ y, ll.pts[q]? = some y ∧ ∃ s, sphereTest ll.grid.periodic L b c y = some s) →
        ∃ t, tags'[q]? = some t ∧ 0 ≤ t := by
  induction ps with
  | nil =>
    intro tags friends _ _
    exact ⟨tags, [], by rw [tagScan]; simp, Tagged.refl g tags, by simp, by simp⟩
  | cons p ps ih =>
    intro tags friends hlen hps
    have hp : p < ll.pts.length := hps p (by simp)
    have hpt : p < tags.length := by omega
    have hps' : ∀ q ∈ ps, q < ll.pts.length := fun q hq => hps q (by simp [hq])
    have hget : Outcome.get tags p = .ok tags[p] := Outcome.get_of_lt hpt
    have hgetp : Outcome.get ll.pts p = .ok ll.pts[p] := Outcome.get_of_lt hp
    by_cases ht : tags[p] ≥ 0
    · obtain ⟨tags', S, e, h1, h2, h3⟩ := ih tags friends hlen hps'
      refine ⟨tags', S, ?_, h1, h2, ?_⟩
      · rw [tagScan, hget, Outcome.bind_ok, if_pos ht, e]
      · intro q hq hy
        rcases List.mem_cons.1 hq with rfl | hq
        · exact h1.keeps hg q ⟨tags[q], List.getElem?_eq_getElem hpt, ht⟩
        · exact h3 q hq hy
    · cases hs : sphereTest ll.grid.periodic L b c ll.pts[p] with
      | none =>
        obtain ⟨tags', S, e, h1, h2, h3⟩ := ih tags friends hlen hps'
        refine ⟨tags', S, ?_, h1, h2, ?_⟩
        · rw [tagScan, hget, Outcome.bind_ok, if_neg ht, hgetp, Outcome.bind_ok, hs]
          exact e
        · intro q hq hy
          rcases List.mem_cons.1 hq with rfl | hq
          · obtain ⟨y, hy, s, hsy⟩ := hy
            rw [List.getElem?_eq_getElem hp] at hy
            cases hy
            rw [hs] at hsy
            cases hsy
          · exact h3 q hq hy
      | some r =>
        have hone : Tagged g tags (tags.set p g) [p] := by
          refine ⟨by simp, by simp, ?_, ?_, ?_⟩
          · intro q hq
            rw [List.mem_singleton] at hq
            subst hq
            exact ⟨_, List.getElem?_eq_getElem hpt, not_le.1 ht⟩
          · intro q hq
            rw [List.mem_singleton] at hq
            subst hq
            simp [hpt]
          · intro q hq
            rw [List.mem_singleton] at hq
            exact List.getElem?_set_ne (Ne.symm hq)
        obtain ⟨tags', S, e, h1, h2, h3⟩ := ih (tags.set p g) (friends ++ [p]) (by simpa using hlen) hps'
        refine ⟨tags', [p] ++ S, ?_, hone.trans hg h1, ?_, ?_⟩
        · rw [tagScan, hget, Outcome.bind_ok, if_neg ht, hgetp, Outcome.bind_ok, hs]
          simp only
          rw [Outcome.set_of_lt hpt, Outcome.bind_ok, e]
          simp
        · intro q hq
          rcases List.mem_append.1 hq with hq | hq
          · rw [List.mem_singleton] at hq
            subst hq
            exact ⟨_, List.getElem?_eq_getElem hp, r, hs⟩
          · exact h2 q hq
        · intro q hq hy
          rcases List.mem_cons.1 hq with rfl | hq
          · exact h1.keeps hg q ⟨g, by simp [hpt], hg⟩
          · exact h3 q hq hy

/-- What a call of `TagFriendsOfFriends` achieves. -/
def TagPost (ll : LinkedCells K) (L b : K) (g : Int) (seeds : List Nat) (tags : List Int)
    (tags' : List Int) (n : Nat) : Prop :=
  ∃ S, Tagged g tags tags' S ∧ n = S.length ∧
    (∀ q ∈ S, ∃ p ∈ seeds, Relation.ReflTransGen (Adj ll L b) p q) ∧
    ∀ p ∈ seeds ++ S, ∀ q, Adj ll L b p q → ∃ t, tags'[q]? = some t ∧ 0 ≤ t

theorem tagEach_ok (ll : LinkedCells K) (L b : K) (g : Int) (hg : 0 ≤ g) (fuel : Nat)
    (tag : Nat → List Int → Outcome (List Int × Nat))
    (htag : ∀ seed tags, seed < ll.pts.length → tags.length = ll.pts.length →
      (untagged tags).length < fuel →
      ∃ tags' n, tag seed tags = .ok (tags', n) ∧ TagPost ll L b g [seed] tags tags' n)
    (ps : List Nat) : ∀ (tags : List Int) (n : Nat), (∀ p ∈ ps, p < ll.pts.length) →
      tags.length = ll.pts.length → (untagged tags).length < fuel →
      ∃ tags' m, tagEach tag ps (tags, n) = .ok (tags', n + m) ∧ TagPost ll L b g ps tags tags' m := by
  induction ps with
  | nil =>
    intro tags n _ _ _
    exact ⟨tags, 0, rfl, [], Tagged.refl g tags, rfl, by simp, by simp⟩
  | cons p ps ih =>
    intro tags n hps hlen hf
    obtain ⟨tags1, m1, e1, S1, t1, hm1, r1, c1⟩ := htag p tags (hps p (by simp)) hlen hf
    have hu := t1.untagged_len hg
    obtain ⟨tags2, m2, e2, S2, t2, hm2, r2, c2⟩ := ih tags1 (n + m1) (fun q hq => hps q (by simp [hq]))
      (t1.len.trans hlen) (by omega)
    refine ⟨tags2, m1 + m2, ?_, S1 ++ S2, t1.trans hg t2, by rw [List.length_append, hm1, hm2], ?_, ?_⟩
    · rw [tagEach, e1, Outcome.bind_ok]
      simp only
      rw [e2, Nat.add_assoc]
    · intro q hq
      rcases List.mem_append.1 hq with hq | hq
      · obtain ⟨p', hp', hr⟩ := r1 q hq
        rw [List.mem_singleton] at hp'
        subst hp'
        exact ⟨p', by simp, hr⟩
      · obtain ⟨p', hp', hr⟩ := r2 q hq
        exact ⟨p', by simp [hp'], hr⟩
    · intro q hq q' hadj
      have : q = p ∨ q ∈ ps ∨ q ∈ S1 ∨ q ∈ S2 := by
        simp only [List.mem_append, List.mem_cons] at hq
        tauto
      rcases this with rfl | h | h | h
      · exact t2.keeps hg q' (c1 q (by simp) q' hadj)
      · exact c2 q (by simp [h]) q' hadj
      · exact t2.keeps hg q' (c1 q (by simp [h]) q' hadj)
      · exact c2 q (by simp [h]) q' hadj

/-- Conditions under which links are found by the cell search. -/
structure FofOK (ll : LinkedCells K) (L b : K) : Prop where
  complete : Complete ll
  grid : GridOK ll.grid
  nonneg : 0 ≤ b
  box : ll.grid.periodic = true → ll.grid.box = L ∧ 0 < L
  inBox : ll.grid.periodic = true → ∀ x ∈ ll.pts, InBox L x

theorem visited_adj (ll : LinkedCells K) (L b : K) (h : FofOK ll L b) (seed : Nat) (c : Fin 3 → K)
    (hc : ll.pts[seed]? = some c) :
    ∃ ps, visitedParticles ll (fun _ => b) c = .ok ps ∧ (∀ p ∈ ps, p < ll.pts.length) ∧
      ∀ q, Adj ll L b seed q → q ∈ ps := by
  obtain ⟨ps, h1, h2, _⟩ := visited_ok ll h.complete (fun _ => b) c
  refine ⟨ps, h1, ?_, ?_⟩
  · intro p hp
    obtain ⟨x, hx, _⟩ := (h2 p).1 hp
    exact (List.getElem?_eq_some_iff.1 hx).1
  · rintro q ⟨x, y, hx, hy, s, hs⟩
    rw [hc] at hx
    cases hx
    refine (h2 q).2 ⟨y, hy, ?_⟩
    obtain ⟨hs1, hs2⟩ := (sphereTest_iff _ L b h.nonneg c y s).1 hs
    rw [hs1, sep2] at hs2
    have hab := abs_offset_le _ _ _ b h.nonneg hs2
    have hoff : ∀ d, |offsetTo ll.grid.periodic ll.grid.box y c d| ≤ b := by
      intro d
      have e : offsetTo ll.grid.periodic ll.grid.box y c d = offsetTo ll.grid.periodic L y c d := by
        unfold offsetTo
        by_cases hp : ll.grid.periodic = true
        · rw [(h.box hp).1]
        · simp [hp]
      rw [e]
      match d with
      | 0 => exact hab.1
      | 1 => exact hab.2.1
      | 2 => exact hab.2.2
    exact covered_of_offset ll.grid h.grid (fun hp => by rw [(h.box hp).1]; exact (h.box hp).2) (fun _ => b) c y
      (fun hp => by rw [(h.box hp).1]; exact h.inBox hp y (List.mem_of_getElem? hy))
      (fun hp => by rw [(h.box hp).1]; exact h.inBox hp c (List.mem_of_getElem? hc)) hoff

theorem tagFriends_ok (ll : LinkedCells K) (L b : K) (h : FofOK ll L b) (g : Int) (hg : 0 ≤ g) (fuel : Nat) :
    ∀ (seed : Nat) (tags : List Int), seed < ll.pts.length → tags.length = ll.pts.length →
      (untagged tags).length < fuel →
      ∃ tags' n, tagFriends ll L b g fuel seed tags = .ok (tags', n) ∧ TagPost ll L b g [seed] tags tags' n := by
  induction fuel with
  | zero => intro _ _ _ _ hf; omega
  | succ fuel ih =>
    intro seed tags hseed hlen hf
    have hc : ll.pts[seed]? = some ll.pts[seed] := List.getElem?_eq_getElem hseed
    obtain ⟨ps, e1, hps, hadj⟩ := visited_adj ll L b h seed _ hc
    obtain ⟨tags1, S1, e2, t1, hS, hall⟩ := tagScan_ok ll L b ll.pts[seed] g hg ps tags [] hlen hps
    rw [List.nil_append] at e2
    have hu := t1.untagged_len hg
    have hS1 : ∀ p ∈ S1, p < ll.pts.length := fun p hp => by
      obtain ⟨y, hy, _⟩ := hS p hp
      exact (List.getElem?_eq_some_iff.1 hy).1
    have hseedAdj : ∀ q, Adj ll L b seed q → ∃ t, tags1[q]? = some t ∧ 0 ≤ t := by
      intro q hq
      refine hall q (hadj q hq) ?_
      obtain ⟨x, y, hx, hy, s, hs⟩ := hq
      rw [hc] at hx
      cases hx
      exact ⟨y, hy, s, hs⟩
    have hstep : ∀ q ∈ S1, Adj ll L b seed q := by
      intro q hq
      obtain ⟨y, hy, s, hs⟩ := hS q hq
      exact ⟨_, y, hc, hy, s, hs⟩
    have eAll : tagFriends ll L b g (fuel + 1) seed tags =
        tagEach (tagFriends ll L b g fuel) S1 (tags1, S1.length) := by
      rw [tagFriends, Outcome.get_of_lt hseed, Outcome.bind_ok, e1, Outcome.bind_ok, e2, Outcome.bind_ok]
    rw [eAll]
    by_cases hnil : S1 = []
    · subst hnil
      refine ⟨tags1, 0, rfl, [], t1, rfl, by simp, ?_⟩
      intro p hp q hq
      simp only [List.append_nil, List.mem_singleton] at hp
      subst hp
      exact hseedAdj q hq
    · have hpos : 0 < S1.length := List.length_pos_iff.2 hnil
      obtain ⟨tags2, m, e3, S2, t2, hm, r2, c2⟩ := tagEach_ok ll L b g hg fuel _ ih S1 tags1 S1.length hS1
        (t1.len.trans hlen) (by omega)
      refine ⟨tags2, S1.length + m, e3, S1 ++ S2, t1.trans hg t2, by rw [List.length_append, hm], ?_, ?_⟩
      · intro q hq
        refine ⟨seed, by simp, ?_⟩
        rcases List.mem_append.1 hq with hq | hq
        · exact Relation.ReflTransGen.single (hstep q hq)
        · obtain ⟨p, hp, hr⟩ := r2 q hq
          exact Relation.ReflTransGen.head (hstep p hp) hr
      · intro p hp q hq
        rcases List.mem_append.1 hp with hp | hp
        · rw [List.mem_singleton] at hp
          subst hp
          exact t2.keeps hg q (hseedAdj q hq)
        · exact c2 p hp q hq

/-- Particles with label `g`. -/
def labelled (tags : List Int) (n : Nat) (g : Nat) : List Nat :=
  (List.range n).filter fun p => decide (tags[p]? = some (g : Int))

/-- Invariant of the loop over the particles. -/
structure LinkInv (ll : LinkedCells K) (L b : K) (lens0 : List Nat) (st : LinkState) : Prop where
  len : st.tags.length = ll.pts.length
  groups : ∃ new, st.lens = lens0 ++ new ∧ new.length = st.grpid ∧
    ∀ g, g < st.grpid → new[g]? = some (labelled st.tags ll.pts.length g).length ∧
      0 < (labelled st.tags ll.pts.length g).length
  bound : ∀ (p : Nat) (t : Int), st.tags[p]? = some t → t < st.grpid
  closed : ∀ p q : Nat, (∃ t, st.tags[p]? = some t ∧ 0 ≤ t) → Adj ll L b p q → ∃ t, st.tags[q]? = some t ∧ 0 ≤ t
  same : ∀ (p q : Nat) (t u : Int), st.tags[p]? = some t → 0 ≤ t → st.tags[q]? = some u → 0 ≤ u →
    (t = u ↔ Relation.ReflTransGen (Adj ll L b) p q)

theorem closed_reach {ll : LinkedCells K} {L b : K} {tags : List Int}
    (hc : ∀ p q : Nat, (∃ t, tags[p]? = some t ∧ 0 ≤ t) → Adj ll L b p q → ∃ t, tags[q]? = some t ∧ 0 ≤ t)
    {p q : Nat} (h : Relation.ReflTransGen (Adj ll L b) p q) (hp : ∃ t, tags[p]? = some t ∧ 0 ≤ t) :
    ∃ t, tags[q]? = some t ∧ 0 ≤ t := by
  induction h with
  | refl => exact hp
  | tail _ hadj ih => exact hc _ _ ih hadj

theorem linkLoop_ok (ll : LinkedCells K) (L b : K) (h : FofOK ll L b) (hsymm : ∀ p q, Adj ll L b p q → Adj ll L b q p)
    (printstep : Nat) (hps : 0 < printstep) (lens0 : List Nat) (is : List Nat) :
    ∀ st : LinkState, (∀ i ∈ is, i < ll.pts.length) → LinkInv ll L b lens0 st →
      ∃ st', linkLoop ll L b printstep is st = .ok st' ∧ LinkInv ll L b lens0 st' ∧
        (∀ i ∈ is, ∃ t, st'.tags[i]? = some t ∧ 0 ≤ t) ∧
        ∀ i : Nat, (∃ t, st.tags[i]? = some t ∧ 0 ≤ t) → ∃ t, st'.tags[i]? = some t ∧ 0 ≤ t := by
  have hsymR : ∀ p q, Relation.ReflTransGen (Adj ll L b) p q → Relation.ReflTransGen (Adj ll L b) q p :=
    fun p q hpq => by
      induction hpq with
      | refl => exact Relation.ReflTransGen.refl
      | tail _ hadj ih => exact Relation.ReflTransGen.head (hsymm _ _ hadj) ih
  induction is with
  | nil =>
    intro st _ hinv
    exact ⟨st, rfl, hinv, by simp, fun i hi => hi⟩
  | cons i is ih =>
    intro st his hinv
    have hi : i < ll.pts.length := his i (by simp)
    have hit : i < st.tags.length := by rw [hinv.len]; exact hi
    have hget : Outcome.get st.tags i = .ok st.tags[i] := Outcome.get_of_lt hit
    have hgeti : st.tags[i]? = some st.tags[i] := List.getElem?_eq_getElem hit
    have his' : ∀ j ∈ is, j < ll.pts.length := fun j hj => his j (by simp [hj])
    by_cases ht : st.tags[i] < 0
    · -- a new group
      have hg : (0 : Int) ≤ (st.grpid : Int) := by omega
      have hone : Tagged (st.grpid : Int) st.tags (st.tags.set i (st.grpid : Int)) [i] := by
        refine ⟨by simp, by simp, ?_, ?_, ?_⟩
        · intro q hq
          rw [List.mem_singleton] at hq
          subst hq
          exact ⟨_, hgeti, ht⟩
        · intro q hq
          rw [List.mem_singleton] at hq
          subst hq
          simp [hit]
        · intro q hq
          rw [List.mem_singleton] at hq
          exact List.getElem?_set_ne (Ne.symm hq)
      have hu := hone.untagged_len hg
      have hul : (untagged st.tags).length ≤ st.tags.length := by
        unfold untagged
        refine le_trans (List.length_filter_le _ _) (by simp)
      obtain ⟨tags', n, e, S, t2, hn, hr, hcl⟩ := tagFriends_ok ll L b h (st.grpid : Int) hg (st.tags.length + 1) i
        (st.tags.set i (st.grpid : Int)) hi (by simpa using hinv.len) (by simp at hu; omega)
      have tt := hone.trans hg t2
      have hT : ∀ q ∈ [i] ++ S, Relation.ReflTransGen (Adj ll L b) i q := by
        intro q hq
        rcases List.mem_append.1 hq with hq | hq
        · rw [List.mem_singleton] at hq
          subst hq
          exact Relation.ReflTransGen.refl
        · obtain ⟨p, hp, hr'⟩ := hr q hq
          rw [List.mem_singleton] at hp
          subst hp
          exact hr'
      have hold : ∀ q, q ∉ [i] ++ S → tags'[q]? = st.tags[q]? := tt.rest
      have hnotT : ∀ (q : Nat) (t : Int), st.tags[q]? = some t → 0 ≤ t → q ∉ [i] ++ S := by
        intro q t hq h0 hmem
        obtain ⟨t', ht', h0'⟩ := tt.was q hmem
        rw [hq] at ht'
        cases ht'
        omega
      have hcases : ∀ (q : Nat) (t : Int), tags'[q]? = some t → 0 ≤ t →
          (q ∈ [i] ++ S ∧ t = st.grpid) ∨ (q ∉ [i] ++ S ∧ st.tags[q]? = some t) := by
        intro q t hq h0
        by_cases hm : q ∈ [i] ++ S
        · left
          have := tt.now q hm
          rw [hq] at this
          cases this
          exact ⟨hm, rfl⟩
        · exact Or.inr ⟨hm, by rw [← hold q hm]; exact hq⟩
      have hsep : ∀ q ∈ [i] ++ S, ∀ (p : Nat) (t : Int), st.tags[p]? = some t → 0 ≤ t →
          ¬ Relation.ReflTransGen (Adj ll L b) p q := by
        intro q hq p t hp h0 hpq
        have h1 : Relation.ReflTransGen (Adj ll L b) p i := hpq.trans (hsymR _ _ (hT q hq))
        obtain ⟨t', h2, h3⟩ := closed_reach hinv.closed h1 ⟨t, hp, h0⟩
        rw [hgeti] at h2
        cases h2
        omega
      have hinv' : LinkInv ll L b lens0 (LinkState.mk tags' (st.lens ++ [1 + n]) (st.grpid + 1)
          (if i ≥ st.progress then st.progress + printstep else st.progress)) := by
        refine ⟨tt.len.trans hinv.len, ?_, ?_, ?_, ?_⟩
        · obtain ⟨new, h1, h2, h3⟩ := hinv.groups
          refine ⟨new ++ [1 + n], by simp only [h1, List.append_assoc], by simp [h2], ?_⟩
          intro g hgl
          simp only at hgl ⊢
          by_cases hge : g = st.grpid
          · subst hge
            have hperm : (labelled tags' ll.pts.length st.grpid).Perm ([i] ++ S) := by
              unfold labelled
              rw [List.perm_ext_iff_of_nodup (List.nodup_range.filter _) tt.nodup]
              intro q
              simp only [List.mem_filter, List.mem_range, decide_eq_true_eq]
              constructor
              · rintro ⟨_, hq⟩
                rcases hcases q _ hq hg with h4 | h4
                · exact h4.1
                · have := hinv.bound q _ h4.2
                  omega
              · intro hq
                refine ⟨?_, tt.now q hq⟩
                have := (List.getElem?_eq_some_iff.1 (tt.now q hq)).1
                rw [tt.len, hinv.len] at this
                exact this
            have hl := hperm.length_eq
            simp only [List.length_append, List.length_singleton] at hl
            rw [hl]
            refine ⟨?_, by omega⟩
            rw [List.getElem?_append_right (by omega), h2]
            simp [hn]
          · have hlt : g < st.grpid := by omega
            have heq : labelled tags' ll.pts.length g = labelled st.tags ll.pts.length g := by
              unfold labelled
              apply List.filter_congr
              intro q _
              congr 1
              apply propext
              by_cases hm : q ∈ [i] ++ S
              · constructor
                · intro hq
                  rw [tt.now q hm] at hq
                  simp only [Option.some.injEq] at hq
                  omega
                · intro hq
                  exact absurd hm (hnotT q _ hq (by omega))
              · rw [hold q hm]
            rw [heq, List.getElem?_append_left (by omega)]
            exact h3 g hlt
        · intro p t hp
          simp only at hp ⊢
          rcases lt_or_ge t 0 with h0 | h0
          · omega
          · rcases hcases p t hp h0 with h4 | h4
            · omega
            · have := hinv.bound p t h4.2
              omega
        · rintro p q ⟨t, hp, h0⟩ hadj
          simp only at hp ⊢
          rcases hcases p t hp h0 with h4 | h4
          · exact hcl p h4.1 q hadj
          · exact tt.keeps hg q (hinv.closed p q ⟨t, h4.2, h0⟩ hadj)
        · intro p q t u hp h0 hq h0'
          simp only at hp hq
          rcases hcases p t hp h0 with h4 | h4 <;> rcases hcases q u hq h0' with h5 | h5
          · rw [h4.2, h5.2]
            simp only [true_iff]
            exact (hsymR _ _ (hT p h4.1)).trans (hT q h5.1)
          · have := hinv.bound q u h5.2
            constructor
            · intro e; omega
            · intro hpq
              exact absurd (hsymR _ _ hpq) (hsep p h4.1 q u h5.2 h0')
          · have := hinv.bound p t h4.2
            constructor
            · intro e; omega
            · intro hpq
              exact absurd hpq (hsep q h5.1 p t h4.2 h0)
          · exact hinv.same p q t u h4.2 h0 h5.2 h0'
      obtain ⟨st', e', inv', hall, hkeep⟩ := ih _ his' hinv'
      refine ⟨st', ?_, inv', ?_, ?_⟩
      · rw [linkLoop, hget, Outcome.bind_ok, if_pos ht, if_neg (by omega)]
        rw [Outcome.set_of_lt hit, Outcome.bind_ok, e, Outcome.bind_ok]
        exact e'
      · intro j hj
        rcases List.mem_cons.1 hj with rfl | hj
        · exact hkeep j ⟨_, tt.now j (by simp), hg⟩
        · exact hall j hj
      · intro j hj
        exact hkeep j (tt.keeps hg j hj)
    · obtain ⟨st', e', inv', hall, hkeep⟩ := ih st his' hinv
      refine ⟨st', ?_, inv', ?_, hkeep⟩
      · rw [linkLoop, hget, Outcome.bind_ok, if_neg ht, e']
      · intro j hj
        rcases List.mem_cons.1 hj with rfl | hj
        · exact hkeep j ⟨_, hgeti, not_lt.1 ht⟩
        · exact hall j hj

end Field
end HBT.LL
