import Verif.Lemmas.OctBuild
import Verif.Lemmas.OctUpdate
import Verif.Lemmas.LinkedSearch
import Verif.Spec.Tree
/-!
# Helper lemmas on oct-trees: the finished tree, its walk order and the search
-/
namespace HBT.OT
open HBT.Model HBT.Spec Oct
set_option linter.unusedSectionVars false
variable {K A S : Type} [Field K] [LinearOrder K] [IsStrictOrderedRing K]

/-- A finished tree of the first `N` particles, with root cell `(len, c)`. -/
structure Built (rule : TreeRule K A S) (add : S → Nat → S) (res : K) (pts : List (Fin 3 → K)) (N : Nat) (t : Tree K A)
    (len : K) (c : Fin 3 → K) (kids : Fin 8 → Oct) : Prop where
  done : Done rule add res N t (.node 0 kids) (-1) len c
  placed : Placed res pts (.node 0 kids) len c
  leaves : (Oct.node 0 kids).leaves.Perm (List.range N)
  ids : (Oct.node 0 kids).ids.Perm (List.range t.cells.length)
  nlen : t.next.length = N
  full : (Oct.node 0 kids).Full
  lenN : 0 ≤ len
  box : ∀ lo hi : K, (∀ p < N, ∀ x, pts[p]? = some x → ∀ d, lo ≤ x d ∧ x d ≤ hi) → len ≤ hi - lo

theorem extents_in (d : Fin 3) (lo hi : K) : ∀ (rest : List (Fin 3 → K)) (b : K × K), lo ≤ b.1 → b.2 ≤ hi →
    (∀ x ∈ rest, lo ≤ x d ∧ x d ≤ hi) →
    lo ≤ (rest.foldl (fun b x => extend b (x d)) b).1 ∧ (rest.foldl (fun b x => extend b (x d)) b).2 ≤ hi
  | [], b, h1, h2, _ => ⟨h1, h2⟩
  | y :: rest, b, h1, h2, h => by
    have hy := h y (by simp)
    simp only [List.foldl_cons]
    refine extents_in d lo hi rest _ ?_ ?_ (fun x hx => h x (by simp [hx]))
    · unfold extend; split_ifs
      · exact h1
      · exact hy.1
      · exact h1
    · unfold extend; split_ifs
      · exact hy.2
      · exact h2
      · exact h2

theorem maxExtension_le (e : Fin 3 → K × K) (b : K) (h : ∀ d, (e d).2 - (e d).1 ≤ b) : maxExtension e ≤ b := by
  unfold maxExtension
  have h0 := h 0
  have h1 := h 1
  have h2 := h 2
  simp only
  split_ifs <;> assumption

theorem resizeNext_length (old : List Int) (N : Nat) : (resizeNext old N).length = N := by
  simp [resizeNext]; omega

theorem perm_range_of {l : List Nat} (hn : l.Nodup) {n : Nat} (h : ∀ m, m ∈ l ↔ m < n) : l.Perm (List.range n) :=
  (List.perm_ext_iff_of_nodup hn List.nodup_range).2 (fun m => by rw [h m, List.mem_range])

/-- The number of particles of the tree: `num`, or all of them. -/
def count (pts : List (Fin 3 → K)) (num : Nat) : Nat := if num = 0 then pts.length else num

theorem buildTree_cases (rule : TreeRule K A S) (add : S → Nat → S) (res resHalf : K) (hres : res = 2 * resHalf)
    (rand : Nat → Nat) (fuel : Nat) (old : List Int) (pts : List (Fin 3 → K)) (num : Nat) (hpts : pts ≠ [])
    (hnum : num ≤ pts.length) (hadd : ∀ s p, p < count pts num → rule.addParticle s p = .ok (add s p)) :
    buildTree rule res resHalf rand fuel old pts num = .diverge ∨
    ∃ t len c kids, buildTree rule res resHalf rand fuel old pts num = .ok t ∧
      Built rule add res pts (count pts num) t len c kids := by
  have hpos : 0 < pts.length := List.length_pos_iff.2 hpts
  have hN : count pts num ≤ pts.length := by unfold count; split_ifs <;> omega
  have hN0 : 0 < count pts num := by unfold count; split_ifs <;> omega
  obtain ⟨first, hf⟩ : ∃ x, pts[0]? = some x := ⟨_, List.getElem?_eq_getElem hpos⟩
  unfold buildTree
  simp only [get_some hf, Outcome.bind_ok]
  change (if count pts num > pts.length then _ else _) = _ ∨ ∃ t len c kids, (if count pts num > pts.length then _ else _) = _ ∧ _
  rw [if_neg (by omega)]
  obtain ⟨hlen, hcov⟩ := root_covers hN0 hN hf
  set e := extent first ((pts.take (count pts num)).drop 1) with he
  obtain ⟨hroot, hrl⟩ := root_holds (A := A) res pts (count pts num) (maxExtension e) (fun d => ((e d).2 + (e d).1) / 2)
  have hfe : ∀ j : Fin 8, ((fun _ => Oct.empty) j).Full := fun _ => trivial
  change (insertAll resHalf rand pts (count pts num) (maxExtension e / 2) (fun d => ((e d).2 + (e d).1) / 2) fuel
    (List.range (count pts num)) 0 [.sons (List.replicate 8 (-1))] >>= _) = _ ∨ ∃ t len c kids,
    (insertAll resHalf rand pts (count pts num) (maxExtension e / 2) (fun d => ((e d).2 + (e d).1) / 2) fuel
    (List.range (count pts num)) 0 [.sons (List.replicate 8 (-1))] >>= _) = _ ∧ _
  rcases insertAll_holds (A := A) res resHalf hres rand pts (count pts num) hN _ _ hlen hcov fuel (List.range (count pts num)) 0
    [.sons (List.replicate 8 (-1))] (fun _ => .empty) (fun i hi => List.mem_range.1 hi) hroot hfe with h | h
  · left; rw [h]; rfl
  · right
    obtain ⟨cells, draws, kids, h1, h2, h3, h4⟩ := h
    rw [h1, Outcome.bind_ok]
    rw [hrl, List.append_nil] at h4
    have hfull : (Oct.node 0 kids).Full := by
      refine ⟨?_, h3⟩
      intro hn
      rw [hn] at h4
      have := h4.length_eq
      simp at this
      omega
    have hln : (Oct.node 0 kids).leaves.Nodup := h4.nodup_iff.2 List.nodup_range
    have hip := perm_range_of h2.nodup h2.ids
    have hd : depth (.node 0 kids) ≤ cells.length + 1 := by
      have h5 := depth_le_ids (.node 0 kids)
      have h6 := hip.length_eq
      rw [List.length_range] at h6
      omega
    obtain ⟨t, ht, hdone, hkept⟩ := updateNode_ok hadd (res := res) _ (cells.length + 1) hd hfull h2.nodup hln 0 kids rfl
      ⟨cells, resizeNext old (count pts num)⟩ (-1) (maxExtension e) (fun d => ((e d).2 + (e d).1) / 2)
      (resizeNext_length _ _) h2.repr
    refine ⟨t, maxExtension e, _, kids, ht, hdone, h2.placed, h4, ?_, ?_, hfull, hlen, ?_⟩
    · rw [hkept.clen]; exact hip
    · rw [hkept.nlen]; exact resizeNext_length _ _
    · intro lo hi hb
      apply maxExtension_le
      intro d
      have hfirst := hb 0 hN0 first hf d
      obtain ⟨a1, a2⟩ := extents_in d lo hi ((pts.take (count pts num)).drop 1) (first d, first d) hfirst.1 hfirst.2 (by
        intro x hx
        obtain ⟨i, hi⟩ := List.mem_iff_getElem?.1 (List.mem_of_mem_drop hx)
        have hlt : i < count pts num := by
          by_contra hc
          rw [List.getElem?_eq_none (by simp; omega)] at hi
          cases hi
        rw [List.getElem?_take_of_lt hlt] at hi
        exact hb i hlt x hi d)
      change (e d).2 - (e d).1 ≤ hi - lo
      have b1 : lo ≤ (e d).1 := a1
      have b2 : (e d).2 ≤ hi := a2
      linarith

theorem built_of_ok {rule : TreeRule K A S} {add : S → Nat → S} {res resHalf : K} (hres : res = 2 * resHalf)
    {rand : Nat → Nat} {fuel : Nat} {old : List Int} {pts : List (Fin 3 → K)} {num : Nat} (hpts : pts ≠ [])
    (hnum : num ≤ pts.length) (hadd : ∀ s p, p < count pts num → rule.addParticle s p = .ok (add s p)) {t : Tree K A}
    (h : buildTree rule res resHalf rand fuel old pts num = .ok t) :
    ∃ len c kids, Built rule add res pts (count pts num) t len c kids := by
  rcases buildTree_cases rule add res resHalf hres rand fuel old pts num hpts hnum hadd with e | ⟨t', len, c, kids, e, hb⟩
  · rw [e] at h; cases h
  · rw [e] at h; cases h
    exact ⟨len, c, kids, hb⟩

/-! ## Walks of a finished tree -/

variable {rule : TreeRule K A S} {add : S → Nat → S} {res : K} {pts : List (Fin 3 → K)} {N : Nat} {t : Tree K A}
  {len : K} {c : Fin 3 → K} {kids : Fin 8 → Oct}

theorem Built.walk (h : Built rule add res pts N t len c kids) {R : Type} {particle : Nat → R → Outcome R} {pf : Nat → R → R}
    (hpf : ∀ p r, p < N → particle p r = .ok (pf p r)) (nf : Way K A → R → Bool × R) (r : R) :
    walkTree N particle nf t (walkFuel t) N r =
      .ok (visitT rule add res N pf nf (.node 0 kids) (-1) len c r) := by
  obtain ⟨n, hn, hw⟩ := walk_ok (rule := rule) (add := add) (res := res) hpf nf t (.node 0 kids) (-1) len c r (by simp)
    (fun p hp => List.mem_range.1 (h.leaves.mem_iff.1 hp)) h.done
  have hsz : size (.node 0 kids) = walkFuel t := by
    have h1 := h.ids.length_eq
    have h2 := h.leaves.length_eq
    rw [List.length_range] at h1 h2
    rw [size, h1, h2, walkFuel, h.nlen]
  obtain ⟨f, hf⟩ : ∃ f, walkFuel t = f + n := ⟨walkFuel t - n, by omega⟩
  rw [hf]
  have := hw f
  rw [walkTree_end] at this
  exact this

/-- Particles and nodes in the order of the walk. -/
def order (N : Nat) : Oct → List Nat
  | .empty => []
  | .leaf p => [p]
  | .node k kids => (N + k) :: (List.finRange 8).flatMap (fun j => order N (kids j))

/-- The links of a finished tree. -/
def links (N : Nat) (t : Tree K A) : Links where
  after p := t.next[p]?
  inside n := match t.cells[n - N]? with
    | some (.way w) => some w.nextnode
    | _ => none

theorem Path.append {N : Nat} {L : Links} {a b z : Int} {l l' : List Nat} (h : Path N L a b l) (h' : Path N L b z l') :
    Path N L a z (l ++ l') := by
  induction h with
  | stop a => exact h'
  | particle p b _ l h1 h2 _ ih => exact .particle p b z (l ++ l') h1 h2 (ih h')
  | node n b _ l h1 h2 _ ih => exact .node n b z (l ++ l') h1 h2 (ih h')

theorem Done.path_kids {k : Nat} {kids : Fin 8 → Oct} {sib : Int} {len : K} {c : Fin 3 → K} (hlt : ∀ p ∈ (Oct.node k kids).leaves, p < N)
    (hd : Done rule add res N t (.node k kids) sib len c)
    (ih : ∀ j sib len c, kids j ≠ .empty → (∀ p ∈ (kids j).leaves, p < N) → Done rule add res N t (kids j) sib len c →
      Path N (links N t) ((kids j).ref N) sib (order N (kids j))) :
    Path N (links N t) (chain (refsFrom N kids 0) sib) sib ((List.finRange 8).flatMap (fun j => order N (kids j))) := by
  have inner : ∀ (n m : Nat), m + n = 8 → Path N (links N t) (chain (refsFrom N kids m) sib) sib
      (((List.finRange 8).drop m).flatMap (fun j => order N (kids j))) := by
    intro n
    induction n with
    | zero =>
      intro m hm
      have : (List.finRange 8).drop m = [] := List.drop_eq_nil_of_le (by simp; omega)
      simpa [refsFrom, this, chain] using Path.stop sib
    | succ n ihn =>
      intro m hm
      have hm8 : m < 8 := by omega
      have hdrop : (List.finRange 8).drop m = (⟨m, hm8⟩ : Fin 8) :: (List.finRange 8).drop (m + 1) := by
        rw [List.drop_eq_getElem_cons (by simpa using hm8)]
        simp
      have href : refsFrom N kids m = (kids ⟨m, hm8⟩).ref N :: refsFrom N kids (m + 1) := by
        simp [refsFrom, hdrop]
      rw [href, hdrop, List.flatMap_cons, chain]
      by_cases he : kids ⟨m, hm8⟩ = .empty
      · rw [if_neg (by rw [he]; simp [Oct.ref]), he]
        exact ihn (m + 1) (by omega)
      · rw [if_pos (ref_nonneg he)]
        refine Path.append (ih ⟨m, hm8⟩ _ _ _ he (fun p hp => hlt p ?_) (hd.2 ⟨m, hm8⟩)) (ihn (m + 1) (by omega))
        simp only [Oct.leaves, List.mem_flatMap]; exact ⟨_, List.mem_finRange _, hp⟩
  exact inner 8 0 (by omega)

theorem Done.path : ∀ (o : Oct) (sib : Int) (len : K) (c : Fin 3 → K), o ≠ .empty → (∀ p ∈ o.leaves, p < N) →
    Done rule add res N t o sib len c → Path N (links N t) (o.ref N) sib (order N o) := by
  intro o
  induction o with
  | empty => intro _ _ _ h; exact absurd rfl h
  | leaf p =>
    intro sib len c _ hlt hd
    exact .particle p sib sib [] (hlt p (by simp [Oct.leaves])) hd (.stop sib)
  | node k kids ih =>
    intro sib len c _ hlt hd
    refine .node (N + k) (chain (refsFrom N kids 0) sib) sib _ (by omega) ?_ (Done.path_kids hlt hd ih)
    have : N + k - N = k := by omega
    simp [links, this, hd.1, wayT]

theorem order_perm (N : Nat) : ∀ o : Oct, (order N o).Perm (o.leaves ++ o.ids.map (N + ·)) := by
  intro o
  induction o with
  | empty => simp [order, Oct.leaves, Oct.ids]
  | leaf p => simp [order, Oct.leaves, Oct.ids]
  | node k kids ih =>
    have : ∀ l : List (Fin 8), (l.flatMap (fun j => order N (kids j))).Perm
        (l.flatMap (fun j => (kids j).leaves) ++ (l.flatMap (fun j => (kids j).ids)).map (N + ·)) := by
      intro l
      induction l with
      | nil => simp
      | cons a l ihl =>
        simp only [List.flatMap_cons, List.map_append]
        refine ((ih a).append ihl).trans ?_
        rw [List.append_assoc, List.append_assoc]
        refine List.Perm.append_left _ ?_
        rw [← List.append_assoc, ← List.append_assoc]
        exact List.Perm.append_right _ List.perm_append_comm
    simp only [order, Oct.leaves, Oct.ids, List.map_cons]
    exact ((this _).cons _).trans List.perm_middle.symm

theorem sublist_flatMap {α β : Type} (f : α → List β) : ∀ {l : List α} {a : α}, a ∈ l → (f a).Sublist (l.flatMap f)
  | b :: l, a, h => by
    rw [List.flatMap_cons]
    rcases List.mem_cons.1 h with rfl | h
    · exact List.sublist_append_left _ _
    · exact (sublist_flatMap f h).trans (List.sublist_append_right _ _)

/-- Finding the node `m` inside the tree. `Q` relates the centres of the rule to the centres of the
cells. -/
theorem Done.find (Q : (Fin 3 → K) → (Fin 3 → K) → Prop)
    (hQ : ∀ len c c' (j : Nat), Q c c' → (childCell rule res len c j).1 = (cellOf res len c' j).1 ∧
      Q (childCell rule res len c j).2 (cellOf res len c' j).2) :
    ∀ (o : Oct) (sib : Int) (len : K) (c c' : Fin 3 → K), Done rule add res N t o sib len c →
    Placed res pts o len c' → Q c c' → o.Full → ∀ m ∈ o.ids,
    ∃ kids sib len c c', Done rule add res N t (.node m kids) sib len c ∧ Placed res pts (.node m kids) len c' ∧ Q c c' ∧
      (Oct.node m kids).Full ∧ (order N (.node m kids)).Sublist (order N o) ∧ (Oct.node m kids).leaves.Sublist o.leaves := by
  intro o
  induction o with
  | empty => intro _ _ _ _ _ _ _ _ m hm; simp [Oct.ids] at hm
  | leaf p => intro _ _ _ _ _ _ _ _ m hm; simp [Oct.ids] at hm
  | node k kids ih =>
    intro sib len c c' hd hp hq hf m hm
    simp only [Oct.ids, List.mem_cons, List.mem_flatMap] at hm
    rcases hm with rfl | ⟨j, -, hm⟩
    · exact ⟨kids, sib, len, c, c', hd, hp, hq, hf, List.Sublist.refl _, List.Sublist.refl _⟩
    · obtain ⟨q1, q2⟩ := hQ len c c' j hq
      have hpj := hp.2 j
      rw [← q1] at hpj
      obtain ⟨kids', sib', len', c1, c2, h1, h2, h3, h4, h5, h6⟩ := ih j _ _ _ _ (hd.2 j) hpj q2 (hf.2 j) m hm
      refine ⟨kids', sib', len', c1, c2, h1, h2, h3, h4, ?_, ?_⟩
      · refine h5.trans (List.Sublist.trans ?_ (List.sublist_cons_self _ _))
        exact sublist_flatMap (fun j => order N (kids j)) (List.mem_finRange j)
      · exact h6.trans (sublist_flatMap (fun j => (kids j).leaves) (List.mem_finRange j))

theorem childCell_geo (res len : K) (c : Fin 3 → K) (j : Nat) : childCell geoRule res len c j = cellOf res len c j := by
  unfold childCell cellOf
  rfl

/-! ## The geometric tree -/

/-- Effect of a particle on the count. -/
def geoAdd : Int → Nat → Int := fun s _ => s + 1

theorem geo_acc (res : K) : ∀ (o : Oct) (len : K) (c : Fin 3 → K) (s : Int),
    accT geoRule geoAdd res o len c s = s + o.leaves.length := by
  intro o
  induction o with
  | empty => intro _ _ s; simp [accT, Oct.leaves]
  | leaf p => intro _ _ s; simp [accT, Oct.leaves, geoAdd]
  | node k kids ih =>
    intro len c s
    have : ∀ (l : List (Fin 8)) (s : Int), l.foldl (fun s j => accT geoRule geoAdd res (kids j)
        (childCell geoRule res len c j).1 (childCell geoRule res len c j).2 s) s =
        s + (l.flatMap (fun j => (kids j).leaves)).length := by
      intro l
      induction l with
      | nil => intro s; simp
      | cons a l ihl =>
        intro s
        rw [List.foldl_cons, ihl, ih, List.flatMap_cons, List.length_append]
        push_cast; ring
    simp only [accT, this, Oct.leaves]
    simp [geoRule]

theorem geo_sum (res : K) (k : Nat) (kids : Fin 8 → Oct) (len : K) (c : Fin 3 → K) :
    sumKids geoRule geoAdd res kids len c (List.finRange 8) (0 : Int) = ((Oct.node k kids).leaves.length : Int) := by
  have : ∀ (l : List (Fin 8)) (s : Int), sumKids geoRule geoAdd res kids len c l s =
      s + (l.flatMap (fun j => (kids j).leaves)).length := by
    intro l
    induction l with
    | nil => intro s; simp [sumKids]
    | cons a l ihl =>
      intro s
      unfold sumKids at ihl ⊢
      rw [List.foldl_cons, ihl, geo_acc, List.flatMap_cons, List.length_append]
      push_cast; ring
  rw [this]
  simp [Oct.leaves]

theorem geo_way (res : K) (N k : Nat) (kids : Fin 8 → Oct) (sib : Int) (len : K) (c : Fin 3 → K) :
    (wayT geoRule geoAdd res N kids sib len c).mass = ((Oct.node k kids).leaves.length : Int) ∧
    (wayT geoRule geoAdd res N kids sib len c).s = c ∧ (wayT geoRule geoAdd res N kids sib len c).len = len := by
  have h := geo_sum res k kids len c
  refine ⟨?_, rfl, rfl⟩
  rw [← h]
  rfl

/-! ### Pruning -/

theorem treeOffset_eq : @treeOffset K _ _ = @offsetTo K _ _ := rfl

theorem particleTest_eq (periodic : Bool) (L r : K) (c x : Fin 3 → K) :
    treeParticleTest periodic L r c x = sphereTest periodic L r c x := rfl

theorem nearest_image (L d : K) : ∃ k : Int, nearest L d = d + k * L := by
  unfold nearest
  simp only
  split_ifs
  · exact ⟨-1, by push_cast; ring⟩
  · exact ⟨1, by push_cast; ring⟩
  · exact ⟨0, by push_cast; ring⟩

theorem nearest_half {L d : K} (hd : |d| ≤ 3 / 2 * L) : |nearest L d| ≤ L / 2 := by
  have := abs_le.1 hd
  unfold nearest
  simp only
  rw [abs_le]
  split_ifs with h1 h2
  · constructor <;> linarith
  · constructor <;> linarith
  · constructor
    · linarith [not_lt.1 h2]
    · exact not_lt.1 h1

theorem half_min {L z : K} (hL : 0 < L) (hz : |z| ≤ L / 2) (k : Int) : |z| ≤ |z + k * L| := by
  by_cases h0 : k = 0
  · subst h0; simp
  · have h1 : (1 : K) ≤ |(k : K)| := by
      have : (1 : Int) ≤ |k| := Int.one_le_abs h0
      exact_mod_cast this
    have h2 : L ≤ |(k : K) * L| := by
      rw [abs_mul, abs_of_pos hL]
      nlinarith
    have h3 : |(k : K) * L| ≤ |z + k * L| + |z| := by
      have := abs_sub (z + k * L) z
      rw [show z + k * L - z = k * L by ring] at this
      exact this
    linarith

theorem nearest_min {L d : K} (hL : 0 < L) (hd : |d| ≤ 3 / 2 * L) (k : Int) : |nearest L d| ≤ |d + k * L| := by
  obtain ⟨k0, hk0⟩ := nearest_image L d
  have := half_min hL (nearest_half hd) (k - k0)
  rw [hk0] at this ⊢
  rw [show d + k0 * L + ((k - k0 : Int) : K) * L = d + k * L by push_cast; ring] at this
  exact this

/-- A cell is not further from the centre than what it holds plus half its side. -/
theorem cell_offset {periodic : Bool} {L : K} {x s cen : Fin 3 → K} {len : K}
    (hbox : periodic = true → 0 < L ∧ len ≤ L ∧ InBox L x ∧ InBox L cen) (hx : ∀ d, |x d - s d| ≤ len / 2) (d : Fin 3) :
    |treeOffset periodic L s cen d| ≤ |treeOffset periodic L x cen d| + len / 2 := by
  have h := hx d
  have h' : |s d - x d| ≤ len / 2 := by rw [abs_sub_comm]; exact h
  unfold treeOffset
  cases periodic with
  | false =>
    simp only [Bool.false_eq_true, if_false]
    have := abs_add_le (s d - x d) (x d - cen d)
    rw [show s d - x d + (x d - cen d) = s d - cen d by ring] at this
    linarith
  | true =>
    obtain ⟨hL, hl, hxb, hcb⟩ := hbox rfl
    simp only [if_true]
    obtain ⟨k, hk⟩ := nearest_image L (x d - cen d)
    have hd : |s d - cen d| ≤ 3 / 2 * L := by
      have h1 := hxb d
      have h2 := hcb d
      have h3 := abs_le.1 h'
      rw [abs_le]
      constructor <;> linarith
    have h1 := nearest_min hL hd k
    have h2 := abs_add_le (s d - x d) (x d - cen d + k * L)
    rw [show s d - x d + (x d - cen d + k * L) = s d - cen d + k * L by ring] at h2
    rw [hk]
    linarith

/-- A node that is not opened holds nothing within the radius. -/
theorem prune_sound {periodic : Bool} {L r : K} {x cen : Fin 3 → K} {w : Way K A}
    (hbox : periodic = true → 0 < L ∧ w.len ≤ L ∧ InBox L x ∧ InBox L cen) (hx : ∀ d, |x d - w.s d| ≤ w.len / 2)
    (h : treeNodeTest periodic L r cen w = false) : treeParticleTest periodic L r cen x = none := by
  have key : ∀ d, (treeOffset periodic L w.s cen d > w.len / 2 + r ∨ treeOffset periodic L w.s cen d < -(w.len / 2 + r)) →
      treeOffset periodic L x cen d > r ∨ treeOffset periodic L x cen d < -r := by
    intro d hd
    have h1 := cell_offset hbox hx d
    have h2 : w.len / 2 + r < |treeOffset periodic L w.s cen d| := by
      rcases hd with hd | hd
      · exact lt_of_lt_of_le hd (le_abs_self _)
      · exact lt_of_lt_of_le (by linarith) (neg_le_abs _)
    have h3 : r < |treeOffset periodic L x cen d| := by linarith
    rcases lt_abs.1 h3 with h | h
    · exact Or.inl h
    · exact Or.inr (by linarith)
  unfold treeNodeTest at h
  unfold treeParticleTest
  simp only at h ⊢
  by_cases h0 : treeOffset periodic L x cen 0 > r ∨ treeOffset periodic L x cen 0 < -r
  · rw [if_pos h0]
  rw [if_neg h0]
  by_cases h1 : treeOffset periodic L x cen 1 > r ∨ treeOffset periodic L x cen 1 < -r
  · rw [if_pos h1]
  rw [if_neg h1]
  by_cases h2 : treeOffset periodic L x cen 2 > r ∨ treeOffset periodic L x cen 2 < -r
  · rw [if_pos h2]
  rw [if_neg (fun hh => h0 (key 0 hh)), if_neg (fun hh => h1 (key 1 hh)), if_neg (fun hh => h2 (key 2 hh))] at h
  cases h

/-! ### Search -/

/-- A particle that is found, with its squared separation. -/
def hit (periodic : Bool) (L r : K) (cen : Fin 3 → K) (pts : List (Fin 3 → K)) (p : Nat) : Option (Nat × K) :=
  match pts[p]? with
  | some x => (treeParticleTest periodic L r cen x).map (fun s => (p, s))
  | none => none

/-- The particle action of a search. -/
def hitStep {R : Type} (periodic : Bool) (L r : K) (cen : Fin 3 → K) (pts : List (Fin 3 → K)) (collect : R → Nat → K → R)
    (p : Nat) (acc : R) : R :=
  match hit periodic L r cen pts p with
  | some f => collect acc f.1 f.2
  | none => acc

theorem foldl_hits {R : Type} (periodic : Bool) (L r : K) (cen : Fin 3 → K) (pts : List (Fin 3 → K)) (collect : R → Nat → K → R) :
    ∀ (l : List Nat) (acc : R), l.foldl (fun acc p => hitStep periodic L r cen pts collect p acc) acc =
      (l.filterMap (hit periodic L r cen pts)).foldl (fun acc f => collect acc f.1 f.2) acc
  | [], acc => rfl
  | p :: l, acc => by
    rw [List.foldl_cons, foldl_hits periodic L r cen pts collect l, List.filterMap_cons]
    unfold hitStep
    cases hit periodic L r cen pts p <;> rfl

theorem foldl_none {R : Type} {periodic : Bool} {L r : K} {cen : Fin 3 → K} {pts : List (Fin 3 → K)} {collect : R → Nat → K → R}
    {l : List Nat} (h : ∀ p ∈ l, hit periodic L r cen pts p = none) (acc : R) :
    l.foldl (fun acc p => hitStep periodic L r cen pts collect p acc) acc = acc := by
  rw [foldl_hits]
  have : l.filterMap (hit periodic L r cen pts) = [] := by
    rw [List.filterMap_eq_nil_iff]; exact h
  rw [this]; rfl

theorem cellOf_len_le {res len : K} (h : 0 ≤ len) (c : Fin 3 → K) (j : Nat) :
    (cellOf res len c j).1 ≤ len ∧ 0 ≤ (cellOf res len c j).1 := by
  unfold cellOf
  split_ifs
  · dsimp only; constructor <;> linarith
  · exact ⟨le_rfl, h⟩

theorem visit_search {R : Type} (periodic : Bool) (L r : K) (cen : Fin 3 → K) (collect : R → Nat → K → R)
    (hcen : periodic = true → 0 < L ∧ InBox L cen) :
    ∀ (o : Oct) (sib : Int) (len : K) (c : Fin 3 → K) (acc : R), 0 ≤ len → (periodic = true → len ≤ L) →
    (periodic = true → ∀ p ∈ o.leaves, ∀ x, pts[p]? = some x → InBox L x) → Placed res pts o len c →
    visitT geoRule geoAdd res N (hitStep periodic L r cen pts collect)
      (fun w acc => (treeNodeTest periodic L r cen w, acc)) o sib len c acc =
    o.leaves.foldl (fun acc p => hitStep periodic L r cen pts collect p acc) acc := by
  intro o
  induction o with
  | empty => intro _ _ _ _ _ _ _ _; rfl
  | leaf p => intro _ _ _ _ _ _ _ _; rfl
  | node k kids ih =>
    intro sib len c acc h0 hl hbox hp
    obtain ⟨-, ws, wl⟩ := geo_way res N k kids sib len c
    rw [visitT]
    by_cases ho : treeNodeTest periodic L r cen (wayT geoRule geoAdd res N kids sib len c) = true
    · rw [if_pos ho]
      have : ∀ (l : List (Fin 8)) (acc : R), l.foldl (fun acc j => visitT geoRule geoAdd res N (hitStep periodic L r cen pts collect)
          (fun w acc => (treeNodeTest periodic L r cen w, acc)) (kids j) (chain (refsFrom N kids (j + 1)) sib)
          (childCell geoRule res len c j).1 (childCell geoRule res len c j).2 acc) acc =
          (l.flatMap (fun j => (kids j).leaves)).foldl (fun acc p => hitStep periodic L r cen pts collect p acc) acc := by
        intro l
        induction l with
        | nil => intro acc; rfl
        | cons a l ihl =>
          intro acc
          rw [List.foldl_cons, List.flatMap_cons, List.foldl_append, ihl]
          congr 1
          rw [childCell_geo]
          have hc := cellOf_len_le h0 c (res := res) a
          refine ih a _ _ _ _ hc.2 (fun h => hc.1.trans (hl h)) (fun h p hpm => hbox h p ?_) (hp.2 a)
          simp only [Oct.leaves, List.mem_flatMap]
          exact ⟨a, List.mem_finRange a, hpm⟩
      exact this _ _
    · rw [if_neg ho]
      refine (foldl_none (fun p hpm => ?_) acc).symm
      unfold hit
      cases hx : pts[p]? with
      | none => rfl
      | some x =>
        have := prune_sound (periodic := periodic) (L := L) (r := r) (x := x) (cen := cen)
          (w := wayT geoRule geoAdd res N kids sib len c)
          (fun hper => ⟨(hcen hper).1, by rw [wl]; exact hl hper, hbox hper p hpm x hx, (hcen hper).2⟩)
          (fun d => by rw [ws, wl]; exact hp.1 p hpm x hx d) (by simpa using ho)
        simp [this]

end HBT.OT
