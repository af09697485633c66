import Verif.Lemmas.OctTree
/-!
# Helper lemmas on oct-trees: `UpdateInternalNodes` and the walk
-/
namespace HBT.OT
open HBT.Model Oct
set_option linter.unusedSectionVars false
variable {K A S : Type} [Field K] [LinearOrder K] [IsStrictOrderedRing K]

/-- The first son of a list of sons, or what follows. -/
def chain : List Int → Int → Int
  | [], sib => sib
  | r :: rs, sib => if 0 ≤ r then r else chain rs sib

/-- The sons from slot `m` on. -/
def refsFrom (N : Nat) (kids : Fin 8 → Oct) (m : Nat) : List Int :=
  ((List.finRange 8).drop m).map (fun j => (kids j).ref N)

/-- What `ProcessNode` adds to the accumulators for a son in the cell `(len, c)`. `add` is the effect of a
particle. -/
def accT (rule : TreeRule K A S) (add : S → Nat → S) (res : K) : Oct → K → (Fin 3 → K) → S → S
  | .empty, _, _, s => s
  | .leaf p, _, _, s => add s p
  | .node _ kids, len, c, s =>
    let f := rule.finish ((List.finRange 8).foldl (fun s j =>
      accT rule add res (kids j) (childCell rule res len c j).1 (childCell rule res len c j).2 s) rule.empty) c
    rule.addNode s f.1 f.2

/-- The accumulators of a node when all its sons have been processed. -/
def sumKids (rule : TreeRule K A S) (add : S → Nat → S) (res : K) (kids : Fin 8 → Oct) (len : K) (c : Fin 3 → K)
    (js : List (Fin 8)) (s : S) : S :=
  js.foldl (fun s j => accT rule add res (kids j) (childCell rule res len c j).1 (childCell rule res len c j).2 s) s

/-- The finished `way` of a node. -/
def wayT (rule : TreeRule K A S) (add : S → Nat → S) (res : K) (N : Nat) (kids : Fin 8 → Oct) (sib : Int) (len : K)
    (c : Fin 3 → K) : Way K A :=
  ⟨len, sib, chain (refsFrom N kids 0) sib,
    (rule.finish (sumKids rule add res kids len c (List.finRange 8) rule.empty) c).1,
    (rule.finish (sumKids rule add res kids len c (List.finRange 8) rule.empty) c).2⟩

/-- The tree is threaded for the walk. -/
def Done (rule : TreeRule K A S) (add : S → Nat → S) (res : K) (N : Nat) (t : Tree K A) :
    Oct → Int → K → (Fin 3 → K) → Prop
  | .empty, _, _, _ => True
  | .leaf p, sib, _, _ => t.next[p]? = some sib
  | .node k kids, sib, len, c => t.cells[k]? = some (.way (wayT rule add res N kids sib len c)) ∧
      ∀ j : Fin 8, Done rule add res N t (kids j) (chain (refsFrom N kids (j + 1)) sib)
        (childCell rule res len c j).1 (childCell rule res len c j).2

theorem Done.congr {rule : TreeRule K A S} {add : S → Nat → S} {res : K} {N : Nat} {t t' : Tree K A} :
    ∀ {o : Oct} {sib : Int} {len : K} {c : Fin 3 → K}, Done rule add res N t o sib len c →
    (∀ m ∈ o.ids, t'.cells[m]? = t.cells[m]?) → (∀ p ∈ o.leaves, t'.next[p]? = t.next[p]?) →
    Done rule add res N t' o sib len c
  | .empty, _, _, _, _, _, _ => trivial
  | .leaf p, _, _, _, h, _, h2 => by
    simp only [Done] at h ⊢; rw [h2 p (by simp [Oct.leaves])]; exact h
  | .node k kids, sib, len, c, h, h1, h2 => by
    refine ⟨?_, fun j => Done.congr (h.2 j) (fun m hm => h1 m ?_) (fun p hp => h2 p ?_)⟩
    · rw [h1 k (by simp [Oct.ids])]; exact h.1
    · simp only [Oct.ids, List.mem_cons, List.mem_flatMap]
      exact Or.inr ⟨j, List.mem_finRange j, hm⟩
    · simp only [Oct.leaves, List.mem_flatMap]
      exact ⟨j, List.mem_finRange j, hp⟩

def depth : Oct → Nat
  | .empty => 0
  | .leaf _ => 0
  | .node _ kids => ((List.finRange 8).map (fun j => depth (kids j))).foldr max 0 + 1

theorem le_foldr_max {l : List Nat} {a : Nat} (h : a ∈ l) : a ≤ l.foldr max 0 := by
  induction l with
  | nil => simp at h
  | cons b l ih =>
    simp only [List.foldr_cons]
    rcases List.mem_cons.1 h with rfl | h
    · exact le_max_left _ _
    · exact (ih h).trans (le_max_right _ _)

theorem depth_kid (k : Nat) (kids : Fin 8 → Oct) (j : Fin 8) : depth (kids j) < depth (.node k kids) := by
  have := le_foldr_max (l := (List.finRange 8).map (fun j => depth (kids j))) (a := depth (kids j))
    (List.mem_map.2 ⟨j, List.mem_finRange j, rfl⟩)
  simp only [depth]
  omega

theorem foldr_max_le {l : List Nat} {b : Nat} (h : ∀ a ∈ l, a ≤ b) : l.foldr max 0 ≤ b := by
  induction l with
  | nil => simp
  | cons a l ih =>
    simp only [List.foldr_cons]
    exact max_le (h a (by simp)) (ih (fun x hx => h x (by simp [hx])))

theorem depth_le_ids (t : Oct) : depth t ≤ t.ids.length := by
  induction t with
  | empty => simp [depth]
  | leaf p => simp [depth]
  | node k kids ih =>
    simp only [depth, Oct.ids, List.length_cons]
    have : ∀ a ∈ (List.finRange 8).map (fun j => depth (kids j)),
        a ≤ ((List.finRange 8).flatMap (fun j => (kids j).ids)).length := by
      intro a ha
      obtain ⟨j, -, rfl⟩ := List.mem_map.1 ha
      refine (ih j).trans ?_
      have := (flatMap_split (List.finRange 8) (fun j => (kids j).ids) (List.mem_finRange j)).length_eq
      rw [this, List.length_append]
      omega
    have := foldr_max_le this
    omega

theorem ref_nonneg {N : Nat} {t : Oct} (h : t ≠ .empty) : 0 ≤ t.ref N := by
  cases t <;> simp [Oct.ref] at h ⊢
  omega

/-- Sons of a list of slots, processed and threaded. -/
def DoneKids (rule : TreeRule K A S) (add : S → Nat → S) (res : K) (N : Nat) (t : Tree K A) (kids : Fin 8 → Oct)
    (sib : Int) (len : K) (c : Fin 3 → K) : List (Fin 8) → Prop
  | [] => True
  | j :: js => Done rule add res N t (kids j) (chain (js.map (fun j => (kids j).ref N)) sib)
      (childCell rule res len c j).1 (childCell rule res len c j).2 ∧ DoneKids rule add res N t kids sib len c js

theorem DoneKids.congr {rule : TreeRule K A S} {add : S → Nat → S} {res : K} {N : Nat} {t t' : Tree K A}
    {kids : Fin 8 → Oct} {sib : Int} {len : K} {c : Fin 3 → K} : ∀ {js : List (Fin 8)},
    DoneKids rule add res N t kids sib len c js →
    (∀ j ∈ js, ∀ m ∈ (kids j).ids, t'.cells[m]? = t.cells[m]?) →
    (∀ j ∈ js, ∀ p ∈ (kids j).leaves, t'.next[p]? = t.next[p]?) → DoneKids rule add res N t' kids sib len c js
  | [], _, _, _ => trivial
  | j :: js, h, h1, h2 => ⟨h.1.congr (h1 j (by simp)) (h2 j (by simp)),
      DoneKids.congr h.2 (fun i hi => h1 i (by simp [hi])) (fun i hi => h2 i (by simp [hi]))⟩

theorem doneKids_all {rule : TreeRule K A S} {add : S → Nat → S} {res : K} {N : Nat} {t : Tree K A}
    {kids : Fin 8 → Oct} {sib : Int} {len : K} {c : Fin 3 → K}
    (h : DoneKids rule add res N t kids sib len c (List.finRange 8)) (j : Fin 8) :
    Done rule add res N t (kids j) (chain (refsFrom N kids (j + 1)) sib)
        (childCell rule res len c j).1 (childCell rule res len c j).2 := by
  have key : ∀ (m : Nat), DoneKids rule add res N t kids sib len c ((List.finRange 8).drop m) := by
    intro m
    induction m with
    | zero => exact h
    | succ m ih =>
      by_cases hm : m < 8
      · rw [List.drop_eq_getElem_cons (by simpa using hm)] at ih
        exact ih.2
      · rw [List.drop_eq_nil_of_le (by simp; omega)]; trivial
  have := key j.val
  rw [List.drop_eq_getElem_cons (by simp)] at this
  have h1 := this.1
  simp only [List.getElem_finRange, Fin.cast_eq_self, Fin.eta] at h1
  exact h1

/-- The frame of an update below the nodes `I` and the particles `P`. -/
structure Kept (t t' : Tree K A) (I P : List Nat) : Prop where
  cells : ∀ m, m ∉ I → t'.cells[m]? = t.cells[m]?
  next : ∀ p, p ∉ P → t'.next[p]? = t.next[p]?
  clen : t'.cells.length = t.cells.length
  nlen : t'.next.length = t.next.length

section Update
variable {rule : TreeRule K A S} {add : S → Nat → S} {res : K} {N : Nat}

/-- What the recursion must provide for the node `o`. -/
def RecOk (rule : TreeRule K A S) (add : S → Nat → S) (res : K) (N : Nat)
    (rec : Tree K A → Nat → Int → K → (Fin 3 → K) → Outcome (Tree K A)) (o : Oct) : Prop :=
  ∀ (k : Nat) (kids : Fin 8 → Oct), o = .node k kids → ∀ (t : Tree K A) (sib : Int) (len : K) (c : Fin 3 → K),
    t.next.length = N → Repr N t.cells o →
    ∃ t', rec t k sib len c = .ok t' ∧ Done rule add res N t' o sib len c ∧ Kept t t' o.ids o.leaves

theorem processNode_ok (hadd : ∀ s p, p < N → rule.addParticle s p = .ok (add s p))
    {rec : Tree K A → Nat → Int → K → (Fin 3 → K) → Outcome (Tree K A)} {o : Oct} (hne : o ≠ .empty)
    (hrec : RecOk rule add res N rec o) (len : K) (c : Fin 3 → K) (t : Tree K A) (hlen : t.next.length = N)
    (hr : Repr N t.cells o) (acc : S) (nextid : Int) (j : Nat) :
    ∃ t', processNode rule res N rec len c t acc (o.ref N) nextid j =
        .ok (t', accT rule add res o (childCell rule res len c j).1 (childCell rule res len c j).2 acc) ∧
      Done rule add res N t' o nextid (childCell rule res len c j).1 (childCell rule res len c j).2 ∧
      Kept t t' o.ids o.leaves := by
  cases o with
  | empty => exact absurd rfl hne
  | leaf p =>
    have hp : p < N := hr
    refine ⟨⟨t.cells, t.next.set p nextid⟩, ?_, ?_, ?_⟩
    · unfold processNode
      rw [if_pos (by simp only [Oct.ref]; omega)]
      simp only [Oct.ref, Int.toNat_natCast, hadd _ _ hp, Outcome.bind_ok, accT]
      rw [Outcome.set_of_lt (by omega)]
      rfl
    · simp [Done, show p < t.next.length by omega]
    · constructor
      · intros; rfl
      · intro q hq
        simp only [Oct.leaves, List.mem_singleton] at hq
        exact List.getElem?_set_ne (Ne.symm hq)
      · rfl
      · simp
  | node k kids =>
    obtain ⟨t', e, hd, hk⟩ := hrec k kids rfl t nextid (childCell rule res len c j).1 (childCell rule res len c j).2 hlen hr
    refine ⟨t', ?_, hd, hk⟩
    unfold processNode
    rw [if_neg (by simp only [Oct.ref]; omega)]
    have e1 : ((Oct.node k kids).ref N).toNat - N = k := by simp only [Oct.ref]; omega
    simp only [e1, e, Outcome.bind_ok]
    have : readWay t'.cells k = .ok (wayT rule add res N kids nextid (childCell rule res len c j).1 (childCell rule res len c j).2) := by
      simp [readWay, hd.1]
    rw [this]
    rfl

theorem pairLoop_ok (hadd : ∀ s p, p < N → rule.addParticle s p = .ok (add s p))
    {rec : Tree K A → Nat → Int → K → (Fin 3 → K) → Outcome (Tree K A)} {kids : Fin 8 → Oct}
    (hrec : ∀ j, RecOk rule add res N rec (kids j)) (len : K) (c : Fin 3 → K) (sib : Int) :
    ∀ (js : List (Fin 8)) (j : Fin 8) (t : Tree K A) (acc : S), kids j ≠ .empty → t.next.length = N →
    (∀ i ∈ j :: js, Repr N t.cells (kids i)) →
    ((j :: js).flatMap (fun i => (kids i).ids)).Nodup → ((j :: js).flatMap (fun i => (kids i).leaves)).Nodup →
    ∃ t', pairLoop rule res N rec len c sib (js.map (fun i => ((kids i).ref N, i.val))) t acc ((kids j).ref N) j.val =
        .ok (t', sumKids rule add res kids len c (j :: js) acc) ∧
      DoneKids rule add res N t' kids sib len c (j :: js) ∧
      Kept t t' ((j :: js).flatMap (fun i => (kids i).ids)) ((j :: js).flatMap (fun i => (kids i).leaves)) := by
  intro js
  induction js with
  | nil =>
    intro j t acc hne hlen hr _ _
    obtain ⟨t', e, hd, hk⟩ := processNode_ok hadd hne (hrec j) len c t hlen (hr j (by simp)) acc sib j.val
    refine ⟨t', ?_, ⟨hd, trivial⟩, ?_⟩
    · simpa [pairLoop, sumKids] using e
    · simpa using hk
  | cons i js ih =>
    intro j t acc hne hlen hr hn hl
    rw [List.map_cons, pairLoop]
    by_cases he : kids i = .empty
    · rw [if_neg (by rw [he]; simp [Oct.ref])]
      have hn' : ((j :: js).flatMap (fun i => (kids i).ids)).Nodup := by simpa [he, Oct.ids] using hn
      have hl' : ((j :: js).flatMap (fun i => (kids i).leaves)).Nodup := by simpa [he, Oct.leaves] using hl
      obtain ⟨t', e, hd, hk⟩ := ih j t acc hne hlen (fun a ha => hr a (by simp at ha ⊢; tauto)) hn' hl'
      refine ⟨t', ?_, ⟨?_, ?_, hd.2⟩, ?_⟩
      · rw [e]; simp [sumKids, he, accT]
      · have := hd.1
        have e2 : chain ((i :: js).map (fun j => (kids j).ref N)) sib = chain (js.map (fun j => (kids j).ref N)) sib := by
          rw [List.map_cons, chain, if_neg (by rw [he]; simp [Oct.ref])]
        rw [e2]; exact this
      · rw [he]; trivial
      · simpa [he, Oct.ids, Oct.leaves] using hk
    · rw [if_pos (ref_nonneg he)]
      obtain ⟨t1, e1, hd1, hk1⟩ := processNode_ok hadd hne (hrec j) len c t hlen (hr j (by simp)) acc ((kids i).ref N) j.val
      rw [e1]
      simp only [Outcome.bind_ok]
      rw [List.flatMap_cons, List.nodup_append] at hn hl
      have dis : ∀ a ∈ i :: js, ∀ m ∈ (kids a).ids, m ∉ (kids j).ids := fun a ha m hm hm' =>
        hn.2.2 m hm' m (List.mem_flatMap.2 ⟨a, ha, hm⟩) rfl
      obtain ⟨t2, e2, hd2, hk2⟩ := ih i t1 (accT rule add res (kids j) (childCell rule res len c j).1 (childCell rule res len c j).2 acc)
        he (by rw [hk1.nlen, hlen])
        (fun a ha => (hr a (List.mem_cons_of_mem _ ha)).congr (fun m hm => hk1.cells m (dis a ha m hm))) hn.2.1 hl.2.1
      refine ⟨t2, ?_, ⟨?_, hd2⟩, ?_⟩
      · rw [e2]; rfl
      · have e3 : chain ((i :: js).map (fun j => (kids j).ref N)) sib = (kids i).ref N := by
          rw [List.map_cons, chain, if_pos (ref_nonneg he)]
        rw [e3]
        refine hd1.congr (fun m hm => hk2.cells m (fun h => ?_)) (fun p hp => hk2.next p (fun h => ?_))
        · exact hn.2.2 m hm m h rfl
        · exact hl.2.2 p hp p h rfl
      · constructor
        · intro m hm
          rw [List.flatMap_cons, List.mem_append, not_or] at hm
          rw [hk2.cells m hm.2, hk1.cells m hm.1]
        · intro m hm
          rw [List.flatMap_cons, List.mem_append, not_or] at hm
          rw [hk2.next m hm.2, hk1.next m hm.1]
        · rw [hk2.clen, hk1.clen]
        · rw [hk2.nlen, hk1.nlen]

theorem zipIdx_ofFn (f : Fin 8 → Int) : (List.ofFn f).zipIdx = (List.finRange 8).map (fun j => (f j, j.val)) := by
  apply List.ext_getElem
  · simp
  · intro i h1 h2
    rw [List.getElem_zipIdx, List.getElem_map, List.getElem_ofFn]
    simp

theorem dropEmpty (rule : TreeRule K A S) (add : S → Nat → S) (res : K) (N : Nat) (kids : Fin 8 → Oct) (len : K)
    (c : Fin 3 → K) (sib : Int) : ∀ (js : List (Fin 8)), (∃ j ∈ js, kids j ≠ .empty) →
    ∃ (pre : List (Fin 8)) (j : Fin 8) (post : List (Fin 8)), js = pre ++ j :: post ∧ kids j ≠ .empty ∧
      (∀ i ∈ pre, kids i = .empty) ∧
      (js.map (fun j => ((kids j).ref N, j.val))).dropWhile (fun s => s.1 < 0) =
        ((kids j).ref N, j.val) :: post.map (fun j => ((kids j).ref N, j.val)) ∧
      chain (js.map (fun j => (kids j).ref N)) sib = (kids j).ref N
  | [], h => by simp at h
  | i :: js, h => by
    by_cases he : kids i = .empty
    · obtain ⟨pre, j, post, h1, h2, h3, h4, h5⟩ := dropEmpty rule add res N kids len c sib js (by
        obtain ⟨j, hj, hne⟩ := h
        rcases List.mem_cons.1 hj with rfl | hj
        · exact absurd he hne
        · exact ⟨j, hj, hne⟩)
      refine ⟨i :: pre, j, post, by rw [h1]; rfl, h2, ?_, ?_, ?_⟩
      · intro a ha
        rcases List.mem_cons.1 ha with rfl | ha
        · exact he
        · exact h3 a ha
      · rw [List.map_cons, List.dropWhile_cons_of_pos (by rw [he]; simp [Oct.ref])]
        exact h4
      · rw [List.map_cons, chain, if_neg (by rw [he]; simp [Oct.ref])]
        exact h5
    · refine ⟨[], i, js, rfl, he, by simp, ?_, ?_⟩
      · have := ref_nonneg (N := N) he
        rw [List.map_cons, List.dropWhile_cons_of_neg (by simpa using this)]
      · rw [List.map_cons, chain, if_pos (ref_nonneg he)]

theorem doneKids_pre {t : Tree K A} {kids : Fin 8 → Oct} {sib : Int} {len : K} {c : Fin 3 → K} :
    ∀ {pre : List (Fin 8)} {js : List (Fin 8)}, (∀ i ∈ pre, kids i = .empty) →
    DoneKids rule add res N t kids sib len c js → DoneKids rule add res N t kids sib len c (pre ++ js)
  | [], _, _, h => h
  | i :: pre, js, he, h => by
    refine ⟨?_, doneKids_pre (fun a ha => he a (by simp [ha])) h⟩
    rw [he i (by simp)]; trivial

theorem sumKids_pre {kids : Fin 8 → Oct} {len : K} {c : Fin 3 → K} :
    ∀ {pre : List (Fin 8)} {js : List (Fin 8)} {s : S}, (∀ i ∈ pre, kids i = .empty) →
    sumKids rule add res kids len c (pre ++ js) s = sumKids rule add res kids len c js s
  | [], _, _, _ => rfl
  | i :: pre, js, s, he => by
    have := sumKids_pre (len := len) (c := c) (js := js) (s := s) (fun a ha => he a (List.mem_cons_of_mem i ha))
    rw [← this]
    simp [sumKids, he i (by simp), accT]

theorem full_kid {k : Nat} {kids : Fin 8 → Oct} (h : (Oct.node k kids).Full) : ∃ j ∈ List.finRange 8, kids j ≠ .empty := by
  by_contra hc
  simp only [not_exists, not_and, not_not] at hc
  apply h.1
  simp only [Oct.leaves, List.flatMap_eq_nil_iff]
  intro j hj
  rw [hc j hj]; rfl

/-- `UpdateInternalNodes` threads the tree below its node and touches nothing else. -/
theorem updateNode_ok (hadd : ∀ s p, p < N → rule.addParticle s p = .ok (add s p)) :
    ∀ (o : Oct) (fuel : Nat), depth o ≤ fuel → o.Full → o.ids.Nodup → o.leaves.Nodup →
    RecOk rule add res N (updateNode rule res N fuel) o := by
  intro o
  induction o with
  | empty => intro _ _ _ _ _ k kids e; cases e
  | leaf p => intro _ _ _ _ _ k kids e; cases e
  | node k kids ih =>
    intro fuel hd hf hn hl k1 kids1 e t sib len c hlen hr
    cases e
    obtain ⟨fuel, rfl⟩ : ∃ f, fuel = f + 1 := ⟨fuel - 1, by simp only [depth] at hd; omega⟩
    have hkl : k < t.cells.length := Repr.ids_lt hr k (by simp [Oct.ids])
    rw [updateNode]
    simp only [readSons_some hr.1, Outcome.bind_ok]
    rw [zipIdx_ofFn]
    obtain ⟨pre, j, post, h1, h2, h3, h4, h5⟩ := dropEmpty rule add res N kids len c sib (List.finRange 8) (full_kid hf)
    rw [h4]
    simp only [Outcome.set_of_lt hkl, Outcome.bind_ok]
    have hn' : (k :: (List.finRange 8).flatMap (fun j => (kids j).ids)).Nodup := hn
    rw [List.nodup_cons] at hn'
    have hl' : ((List.finRange 8).flatMap (fun j => (kids j).leaves)).Nodup := hl
    have kidsub : ∀ i, (kids i).ids.Nodup := fun i => by
      have := ((ids_split k kids i).nodup_iff).1 hn
      rw [List.nodup_cons, List.nodup_append] at this
      exact this.2.1
    have leafsub : ∀ i, (kids i).leaves.Nodup := fun i => by
      have := ((leaves_split k kids i).nodup_iff).1 hl
      rw [List.nodup_append] at this
      exact this.1
    have hknot : ∀ i, k ∉ (kids i).ids := fun i hi =>
      hn'.1 (List.mem_flatMap.2 ⟨i, List.mem_finRange i, hi⟩)
    have epre : ∀ (g : Oct → List Nat), g .empty = [] → (List.finRange 8).flatMap (fun j => g (kids j)) =
        (j :: post).flatMap (fun j => g (kids j)) := by
      intro g hg
      rw [h1, List.flatMap_append]
      have : pre.flatMap (fun j => g (kids j)) = [] := by
        rw [List.flatMap_eq_nil_iff]; intro i hi; rw [h3 i hi, hg]
      rw [this, List.nil_append]
    have eids := epre Oct.ids rfl
    have elv := epre Oct.leaves rfl
    obtain ⟨t', e1, hd1, hk1⟩ := pairLoop_ok hadd (rec := updateNode rule res N fuel) (kids := kids)
      (fun i => ih i fuel (by have := depth_kid k kids i; omega) (hf.2 i) (kidsub i) (leafsub i)) len c sib post j
      ⟨t.cells.set k (.opened len sib ((kids j).ref N)), t.next⟩ rule.empty h2 hlen
      (fun i _ => (hr.2 i).congr (fun m hm => List.getElem?_set_ne (by rintro rfl; exact hknot i hm)))
      (by rw [← eids]; exact hn'.2) (by rw [← elv]; exact hl')
    rw [e1]
    simp only [Outcome.bind_ok]
    have hkl' : k < t'.cells.length := by rw [hk1.clen]; simpa using hkl
    rw [Outcome.set_of_lt hkl', Outcome.bind_ok]
    refine ⟨_, rfl, ⟨?_, ?_⟩, ?_⟩
    · have es : sumKids rule add res kids len c (j :: post) rule.empty = sumKids rule add res kids len c (List.finRange 8) rule.empty := by
        rw [h1, sumKids_pre h3]
      simp only [List.getElem?_set_self hkl', es]
      unfold wayT refsFrom
      rw [List.drop_zero, h5]
    · intro i
      refine doneKids_all ?_ i
      rw [h1]
      refine doneKids_pre h3 (hd1.congr (fun a _ m hm => ?_) (fun _ _ _ _ => rfl))
      exact List.getElem?_set_ne (by rintro rfl; exact hknot a hm)
    · constructor
      · intro m hm
        simp only [Oct.ids, List.mem_cons, not_or] at hm
        rw [List.getElem?_set_ne (Ne.symm hm.1), hk1.cells m (by rw [← eids]; exact hm.2)]
        exact List.getElem?_set_ne (Ne.symm hm.1)
      · intro p hp
        exact hk1.next p (by rw [← elv]; exact hp)
      · simp [hk1.clen]
      · simp [hk1.nlen]
end Update

/-! ## The walk -/

section Walk
variable {R : Type} {rule : TreeRule K A S} {add : S → Nat → S} {res : K} {N : Nat}

/-- The effect of a walk over the tree. -/
def visitT (rule : TreeRule K A S) (add : S → Nat → S) (res : K) (N : Nat) (pf : Nat → R → R) (nf : Way K A → R → Bool × R) :
    Oct → Int → K → (Fin 3 → K) → R → R
  | .empty, _, _, _, r => r
  | .leaf p, _, _, _, r => pf p r
  | .node _ kids, sib, len, c, r =>
    let o := nf (wayT rule add res N kids sib len c) r
    if o.1 then (List.finRange 8).foldl (fun r j => visitT rule add res N pf nf (kids j)
      (chain (refsFrom N kids (j + 1)) sib) (childCell rule res len c j).1 (childCell rule res len c j).2 r) o.2
    else o.2

def size (t : Oct) : Nat := t.ids.length + t.leaves.length

theorem size_node (k : Nat) (kids : Fin 8 → Oct) :
    size (.node k kids) = 1 + ((List.finRange 8).map (fun j => size (kids j))).sum := by
  simp only [size, Oct.ids, Oct.leaves, List.length_cons, List.length_flatMap]
  have : ∀ l : List (Fin 8), (l.map (fun j => (kids j).ids.length)).sum + 1 + (l.map (fun j => (kids j).leaves.length)).sum =
      1 + (l.map (fun j => (kids j).ids.length + (kids j).leaves.length)).sum := by
    intro l
    induction l with
    | nil => simp
    | cons a l ih => simp only [List.map_cons, List.sum_cons]; omega
  exact this _

theorem walk_ok {particle : Nat → R → Outcome R} {pf : Nat → R → R} (hpf : ∀ p r, p < N → particle p r = .ok (pf p r))
    (nf : Way K A → R → Bool × R) (t : Tree K A) : ∀ (o : Oct) (sib : Int) (len : K) (c : Fin 3 → K) (r : R), o ≠ .empty →
    (∀ p ∈ o.leaves, p < N) → Done rule add res N t o sib len c →
    ∃ n ≤ size o, ∀ f, walkTree N particle nf t (f + n) (o.ref N) r =
      walkTree N particle nf t f sib (visitT rule add res N pf nf o sib len c r) := by
  intro o
  induction o with
  | empty => intro _ _ _ _ h; exact absurd rfl h
  | leaf p =>
    intro sib len c r _ hlt hd
    have hp : p < N := hlt p (by simp [Oct.leaves])
    refine ⟨1, by simp [size, Oct.leaves, Oct.ids], fun f => ?_⟩
    rw [walkTree, if_neg (by simp only [Oct.ref]; omega), if_pos (by simp only [Oct.ref]; omega)]
    simp only [Oct.ref, Int.toNat_natCast]
    have : t.next[p]? = some sib := hd
    rw [get_some this]
    simp only [Outcome.bind_ok, hpf p r hp]
    rfl
  | node k kids ih =>
    intro sib len c r _ hlt hd
    have hlt' : ∀ j, ∀ p ∈ (kids j).leaves, p < N := fun j p hp =>
      hlt p (by simp only [Oct.leaves, List.mem_flatMap]; exact ⟨j, List.mem_finRange j, hp⟩)
    have step : ∀ f, walkTree N particle nf t (f + 1) ((Oct.node k kids).ref N) r =
        walkTree N particle nf t f (if (nf (wayT rule add res N kids sib len c) r).1 then chain (refsFrom N kids 0) sib else sib)
          (nf (wayT rule add res N kids sib len c) r).2 := by
      intro f
      rw [walkTree, if_neg (by simp only [Oct.ref]; omega), if_neg (by simp only [Oct.ref]; omega)]
      have e1 : ((Oct.node k kids).ref N).toNat - N = k := by simp only [Oct.ref]; omega
      have : readWay t.cells k = .ok (wayT rule add res N kids sib len c) := by simp [readWay, hd.1]
      rw [e1, this]
      rfl
    by_cases ho : (nf (wayT rule add res N kids sib len c) r).1
    · -- the kids from slot m on
      have inner : ∀ (n m : Nat), m + n = 8 → ∀ r, ∃ s ≤ (((List.finRange 8).drop m).map (fun j => size (kids j))).sum,
          ∀ f, walkTree N particle nf t (f + s) (chain (refsFrom N kids m) sib) r =
            walkTree N particle nf t f sib (((List.finRange 8).drop m).foldl (fun r j => visitT rule add res N pf nf (kids j)
              (chain (refsFrom N kids (j + 1)) sib) (childCell rule res len c j).1 (childCell rule res len c j).2 r) r) := by
        intro n
        induction n with
        | zero =>
          intro m hm r
          have : (List.finRange 8).drop m = [] := List.drop_eq_nil_of_le (by simp; omega)
          refine ⟨0, by simp, fun f => ?_⟩
          simp [refsFrom, this, chain]
        | succ n ihn =>
          intro m hm r
          have hm8 : m < 8 := by omega
          have hdrop : (List.finRange 8).drop m = (⟨m, hm8⟩ : Fin 8) :: (List.finRange 8).drop (m + 1) := by
            rw [List.drop_eq_getElem_cons (by simpa using hm8)]
            simp
          have href : refsFrom N kids m = (kids ⟨m, hm8⟩).ref N :: refsFrom N kids (m + 1) := by
            simp [refsFrom, hdrop]
          by_cases he : kids ⟨m, hm8⟩ = .empty
          · obtain ⟨s, hs, hw⟩ := ihn (m + 1) (by omega) r
            refine ⟨s, ?_, fun f => ?_⟩
            · rw [hdrop, List.map_cons, List.sum_cons]; omega
            · rw [href, chain, if_neg (by rw [he]; simp [Oct.ref]), hw f, hdrop, List.foldl_cons]
              simp [he, visitT]
          · obtain ⟨s1, hs1, hw1⟩ := ih ⟨m, hm8⟩ (chain (refsFrom N kids (m + 1)) sib) _ _ r he (hlt' _) (hd.2 ⟨m, hm8⟩)
            obtain ⟨s, hs, hw⟩ := ihn (m + 1) (by omega) (visitT rule add res N pf nf (kids ⟨m, hm8⟩)
              (chain (refsFrom N kids (m + 1)) sib) (childCell rule res len c m).1 (childCell rule res len c m).2 r)
            refine ⟨s + s1, ?_, fun f => ?_⟩
            · rw [hdrop, List.map_cons, List.sum_cons]; omega
            · rw [href, chain, if_pos (ref_nonneg he), ← Nat.add_assoc, hw1 (f + s), hw f, hdrop, List.foldl_cons]
      obtain ⟨s, hs, hw⟩ := inner 8 0 (by omega) (nf (wayT rule add res N kids sib len c) r).2
      refine ⟨s + 1, ?_, fun f => ?_⟩
      · rw [size_node]; rw [List.drop_zero] at hs; omega
      · rw [← Nat.add_assoc, step, if_pos ho, hw f, List.drop_zero]
        simp only [visitT, ho, if_true]
    · refine ⟨1, by rw [size_node]; omega, fun f => ?_⟩
      rw [step, if_neg ho]
      simp only [visitT, ho]
      rfl

theorem walkTree_end (particle : Nat → R → Outcome R) (nf : Way K A → R → Bool × R) (t : Tree K A) (f : Nat) (r : R) :
    walkTree N particle nf t f (-1) r = .ok r := by
  cases f <;> simp [walkTree]
end Walk

end HBT.OT
