import Verif.Lemmas.OctSearch
/-!
# Helper lemmas on oct-trees: masses, centres of mass and the potential
-/
namespace HBT.OT
open HBT.Model HBT.Spec Oct
set_option linter.unusedSectionVars false
variable {K : Type} [Field K] [LinearOrder K] [IsStrictOrderedRing K]

/-- Effect of a particle on the accumulators of the gravity tree. -/
def gravAdd (m : Nat → K) (x : Nat → Fin 3 → K) (s : K × (Fin 3 → K)) (p : Nat) : K × (Fin 3 → K) :=
  (s.1 + m p, fun d => s.2 d + x p d * m p)

/-- Weighted positions. -/
def moment (m : Nat → K) (x : Nat → Fin 3 → K) (l : List Nat) (d : Fin 3) : K := (l.map (fun p => m p * x p d)).sum

theorem totalMass_append (m : Nat → K) (l l' : List Nat) : totalMass m (l ++ l') = totalMass m l + totalMass m l' := by
  simp [totalMass]

theorem moment_append (m : Nat → K) (x : Nat → Fin 3 → K) (l l' : List Nat) (d : Fin 3) :
    moment m x (l ++ l') d = moment m x l d + moment m x l' d := by
  simp [moment]

theorem totalMass_pos {m : Nat → K} : ∀ {l : List Nat}, (∀ p ∈ l, 0 < m p) → l ≠ [] → 0 < totalMass m l
  | [], _, h => absurd rfl h
  | [p], h, _ => by simpa [totalMass] using h p (by simp)
  | p :: q :: l, h, _ => by
    have h1 := totalMass_pos (l := q :: l) (fun a ha => h a (by simp [List.mem_cons.1 ha])) (by simp)
    have h2 := h p (by simp)
    simp only [totalMass, List.map_cons, List.sum_cons] at h1 ⊢
    linarith

theorem totalMass_nonneg {m : Nat → K} {l : List Nat} (h : ∀ p ∈ l, 0 < m p) : 0 ≤ totalMass m l := by
  by_cases hl : l = []
  · subst hl; simp [totalMass]
  · exact (totalMass_pos h hl).le

variable (pts : List (Fin 3 → K)) (mass : List K) (m : Nat → K) (x : Nat → Fin 3 → K) (res : K)

/-- Total mass and moment of a node. -/
theorem grav_foldl (kids : Fin 8 → Oct) (len : K) (c : Fin 3 → K)
    (ih : ∀ j s, accT (gravityRule pts mass) (gravAdd m x) res (kids j) (childCell (gravityRule pts mass) res len c j).1
      (childCell (gravityRule pts mass) res len c j).2 s =
      (s.1 + totalMass m (kids j).leaves, fun d => s.2 d + moment m x (kids j).leaves d)) :
    ∀ (l : List (Fin 8)) (s : K × (Fin 3 → K)), sumKids (gravityRule pts mass) (gravAdd m x) res kids len c l s =
      (s.1 + totalMass m (l.flatMap (fun j => (kids j).leaves)), fun d => s.2 d + moment m x (l.flatMap (fun j => (kids j).leaves)) d) := by
  intro l
  induction l with
  | nil => intro s; simp [sumKids, totalMass, moment]
  | cons a l ihl =>
    intro s
    unfold sumKids at ihl ⊢
    rw [List.foldl_cons, ihl, ih, List.flatMap_cons, totalMass_append]
    simp only [moment_append]
    ext1
    · ring
    · funext d; ring

theorem grav_acc : ∀ (o : Oct) (len : K) (c : Fin 3 → K) (s : K × (Fin 3 → K)), o.Full → (∀ p ∈ o.leaves, 0 < m p) →
    accT (gravityRule pts mass) (gravAdd m x) res o len c s =
      (s.1 + totalMass m o.leaves, fun d => s.2 d + moment m x o.leaves d) := by
  intro o
  induction o with
  | empty => intro _ _ s _ _; simp [accT, Oct.leaves, totalMass, moment]
  | leaf p => intro _ _ s _ _; simp [accT, Oct.leaves, gravAdd, totalMass, moment, mul_comm]
  | node k kids ih =>
    intro len c s hf hm
    have hm' : ∀ j, ∀ p ∈ (kids j).leaves, 0 < m p := fun j p hp => hm p (by
      simp only [Oct.leaves, List.mem_flatMap]; exact ⟨j, List.mem_finRange j, hp⟩)
    have h := grav_foldl pts mass m x res kids len c (fun j s => ih j _ _ s (hf.2 j) (hm' j)) (List.finRange 8)
      (gravityRule pts mass).empty
    have hpos : 0 < totalMass m (Oct.node k kids).leaves := totalMass_pos hm hf.1
    have e : accT (gravityRule pts mass) (gravAdd m x) res (.node k kids) len c s =
      (gravityRule pts mass).addNode s
        ((gravityRule pts mass).finish (sumKids (gravityRule pts mass) (gravAdd m x) res kids len c (List.finRange 8) (gravityRule pts mass).empty) c).1
        ((gravityRule pts mass).finish (sumKids (gravityRule pts mass) (gravAdd m x) res kids len c (List.finRange 8) (gravityRule pts mass).empty) c).2 := rfl
    rw [e, h]
    have e2 : (List.finRange 8).flatMap (fun j => (kids j).leaves) = (Oct.node k kids).leaves := rfl
    rw [e2]
    simp only [gravityRule, zero_add]
    ext1
    · rfl
    · funext d
      simp only
      rw [div_mul_cancel₀ _ hpos.ne']

theorem grav_way (N k : Nat) (kids : Fin 8 → Oct) (sib : Int) (len : K) (c : Fin 3 → K) (hf : (Oct.node k kids).Full)
    (hm : ∀ p ∈ (Oct.node k kids).leaves, 0 < m p) :
    let w := wayT (gravityRule pts mass) (gravAdd m x) res N kids sib len c
    w.len = len ∧ w.mass = totalMass m (Oct.node k kids).leaves ∧ IsCentre m x (Oct.node k kids).leaves w.s := by
  have hm' : ∀ j, ∀ p ∈ (kids j).leaves, 0 < m p := fun j p hp => hm p (by
    simp only [Oct.leaves, List.mem_flatMap]; exact ⟨j, List.mem_finRange j, hp⟩)
  have h := grav_foldl pts mass m x res kids len c (fun j s => grav_acc pts mass m x res _ _ _ s (hf.2 j) (hm' j)) (List.finRange 8)
    (gravityRule pts mass).empty
  have hpos : 0 < totalMass m (Oct.node k kids).leaves := totalMass_pos hm hf.1
  have e2 : (List.finRange 8).flatMap (fun j => (kids j).leaves) = (Oct.node k kids).leaves := rfl
  rw [e2] at h
  intro w
  refine ⟨rfl, ?_, ?_⟩
  · change ((gravityRule pts mass).finish (sumKids (gravityRule pts mass) (gravAdd m x) res kids len c (List.finRange 8) (gravityRule pts mass).empty) c).1 = _
    rw [h]
    simp [gravityRule]
  · intro d
    change _ * ((gravityRule pts mass).finish (sumKids (gravityRule pts mass) (gravAdd m x) res kids len c (List.finRange 8) (gravityRule pts mass).empty) c).2 d = _
    rw [h]
    simp only [gravityRule, zero_add]
    rw [mul_div_cancel₀ _ hpos.ne']
    rfl

theorem childCell_grav (len : K) (c c' : Fin 3 → K) (j : Nat) :
    (childCell (gravityRule pts mass) res len c j).1 = (cellOf res len c' j).1 := by
  unfold childCell cellOf
  split_ifs <;> rfl

variable {pts mass m x res}

/-- The centre of mass is between bounds of the members. -/
theorem centre_between {l : List Nat} {s : Fin 3 → K} (hc : IsCentre m x l s) (hm : ∀ p ∈ l, 0 < m p) (hl : l ≠ []) (d : Fin 3)
    {lo hi : K} (h : ∀ p ∈ l, lo ≤ x p d ∧ x p d ≤ hi) : lo ≤ s d ∧ s d ≤ hi := by
  have hpos := totalMass_pos hm hl
  have key : ∀ l : List Nat, (∀ p ∈ l, 0 < m p) → (∀ p ∈ l, lo ≤ x p d ∧ x p d ≤ hi) →
      totalMass m l * lo ≤ moment m x l d ∧ moment m x l d ≤ totalMass m l * hi := by
    intro l
    induction l with
    | nil => intro _ _; simp [totalMass, moment]
    | cons a l ih =>
      intro h1 h2
      obtain ⟨i1, i2⟩ := ih (fun p hp => h1 p (by simp [hp])) (fun p hp => h2 p (by simp [hp]))
      have a1 := h1 a (by simp)
      have a2 := h2 a (by simp)
      simp only [totalMass, moment, List.map_cons, List.sum_cons] at *
      constructor <;> nlinarith
  obtain ⟨k1, k2⟩ := key l hm h
  have e : totalMass m l * s d = moment m x l d := hc d
  rw [← e] at k1 k2
  exact ⟨le_of_mul_le_mul_left k1 hpos, le_of_mul_le_mul_left k2 hpos⟩

/-- The centre of mass is below any strict bound of the members. -/
theorem centre_lt {l : List Nat} {s : Fin 3 → K} (hc : IsCentre m x l s) (hm : ∀ p ∈ l, 0 < m p) (hl : l ≠ []) (d : Fin 3)
    {hi : K} (h : ∀ p ∈ l, x p d < hi) : s d < hi := by
  obtain ⟨M, hM, hmax⟩ : ∃ M ∈ l, ∀ p ∈ l, x p d ≤ x M d := by
    clear hc hm
    induction l with
    | nil => exact absurd rfl hl
    | cons a l ih =>
      by_cases hl' : l = []
      · subst hl'; exact ⟨a, by simp, by simp⟩
      · obtain ⟨M, hM, hmax⟩ := ih hl' (fun p hp => h p (by simp [hp]))
        rcases le_total (x a d) (x M d) with h1 | h1
        · refine ⟨M, by simp [hM], fun p hp => ?_⟩
          rcases List.mem_cons.1 hp with rfl | hp
          · exact h1
          · exact hmax p hp
        · refine ⟨a, by simp, fun p hp => ?_⟩
          rcases List.mem_cons.1 hp with rfl | hp
          · exact le_rfl
          · exact (hmax p hp).trans h1
  have := centre_between hc hm hl d (lo := s d ⊓ l.foldr (fun p b => x p d ⊓ b) (s d)) (hi := x M d) (fun p hp => ⟨?_, hmax p hp⟩)
  · exact lt_of_le_of_lt this.2 (h M hM)
  · refine inf_le_right.trans ?_
    clear hc hm hl h hM hmax
    induction l with
    | nil => simp at hp
    | cons a l ih =>
      simp only [List.foldr_cons]
      rcases List.mem_cons.1 hp with rfl | hp
      · exact inf_le_left
      · exact inf_le_right.trans (ih hp)

theorem centre_inBox {L : K} {l : List Nat} {s : Fin 3 → K} (hc : IsCentre m x l s) (hm : ∀ p ∈ l, 0 < m p) (hl : l ≠ [])
    (h : ∀ p ∈ l, InBox L (x p)) : InBox L s := by
  intro d
  refine ⟨(centre_between hc hm hl d (lo := 0) (hi := L) (fun p hp => ⟨(h p hp d).1, (h p hp d).2.le⟩)).1,
    centre_lt hc hm hl d (fun p hp => (h p hp d).2)⟩

theorem dist_separation [FloorRing K] {periodic : Bool} {L : K} {y c : Fin 3 → K}
    (h : periodic = true → 0 < L ∧ InBox L y ∧ InBox L c) : Separation periodic L y c (treeDist2 periodic L y c) := by
  cases periodic with
  | false =>
    unfold Separation treeDist2 treeOffset sqDist
    simp only [Bool.false_eq_true, if_false]
    ring
  | true =>
    obtain ⟨h1, h2, h3⟩ := h rfl
    exact (LL.sep2_separation true L h1 y c (fun _ => h2) (fun _ => h3) _).2 rfl

/-! ## The potential -/

/-- The particle action of the potential walk. -/
def potStep (periodic : Bool) (L : K) (sqrt : K → K) (soft : K) (m : Nat → K) (x : Nat → Fin 3 → K) (target : Fin 3 → K)
    (p : Nat) (pot : K) : K := pot + softPotential sqrt soft (m p) (treeDist2 periodic L (x p) target)

/-- The node action of the potential walk. -/
def potNode (periodic : Bool) (L : K) (sqrt : K → K) (soft angle2 : K) (target : Fin 3 → K) (w : Way K K) (pot : K) : Bool × K :=
  let r2 := treeDist2 periodic L w.s target
  if w.len * w.len > r2 * angle2 then (true, pot)
  else (false, pot + softPotential sqrt soft w.mass r2)

/-- The clusters used by the walk over a tree. -/
structure Used (periodic : Bool) (L angle2 : K) (m : Nat → K) (x : Nat → Fin 3 → K) (target : Fin 3 → K)
    (l : List Nat) (cls : List (Cluster K)) : Prop where
  parts : (cls.map Cluster.members).flatten = l
  nonempty : ∀ cl ∈ cls, cl.members ≠ []
  centre : ∀ cl ∈ cls, IsCentre m x cl.members cl.centre
  sep : ∀ cl ∈ cls, cl.sep2 = treeDist2 periodic L cl.centre target
  allowed : ∀ cl ∈ cls, cl.Allowed angle2 x

/-- Sum of the potentials of clusters. -/
def clusterPot (sqrt : K → K) (soft : K) (m : Nat → K) (cls : List (Cluster K)) : K :=
  (cls.map (fun cl => softPotential sqrt soft (totalMass m cl.members) cl.sep2)).sum

theorem visit_potential (periodic : Bool) (L : K) (sqrt : K → K) (soft angle2 : K) (target : Fin 3 → K) (N : Nat) :
    ∀ (o : Oct) (sib : Int) (len : K) (c c' : Fin 3 → K) (pot : K), o.Full → (∀ p ∈ o.leaves, 0 < m p ∧ pts[p]? = some (x p)) → 0 ≤ len →
    Placed res pts o len c' →
    ∃ cls, Used periodic L angle2 m x target o.leaves cls ∧
      visitT (gravityRule pts mass) (gravAdd m x) res N (potStep periodic L sqrt soft m x target)
        (potNode periodic L sqrt soft angle2 target) o sib len c pot = pot + clusterPot sqrt soft m cls := by
  intro o
  induction o with
  | empty => intro _ _ _ _ pot _ _ _ _; exact ⟨[], ⟨rfl, by simp, by simp, by simp, by simp⟩, by simp [visitT, clusterPot]⟩
  | leaf p =>
    intro _ _ _ _ pot _ _ _ _
    refine ⟨[⟨[p], x p, treeDist2 periodic L (x p) target⟩], ⟨rfl, by simp, ?_, by simp, ?_⟩, ?_⟩
    · intro cl hcl
      rw [List.mem_singleton] at hcl; subst hcl
      intro d; simp [totalMass]
    · intro cl hcl
      rw [List.mem_singleton] at hcl; subst hcl
      exact Or.inl ⟨p, rfl⟩
    · simp [visitT, potStep, clusterPot, totalMass]
  | node k kids ih =>
    intro sib len c c' pot hf hm hl hp
    obtain ⟨w1, w2, w3⟩ := grav_way pts mass m x res N k kids sib len c hf (fun p hp => (hm p hp).1)
    rw [visitT]
    set w := wayT (gravityRule pts mass) (gravAdd m x) res N kids sib len c with hw
    unfold potNode
    by_cases ho : w.len * w.len > treeDist2 periodic L w.s target * angle2
    · simp only [if_pos ho]
      have : ∀ (l : List (Fin 8)) (pot : K), ∃ cls, Used periodic L angle2 m x target (l.flatMap (fun j => (kids j).leaves)) cls ∧
          l.foldl (fun pot j => visitT (gravityRule pts mass) (gravAdd m x) res N (potStep periodic L sqrt soft m x target)
            (potNode periodic L sqrt soft angle2 target) (kids j) (chain (refsFrom N kids (j + 1)) sib)
            (childCell (gravityRule pts mass) res len c j).1 (childCell (gravityRule pts mass) res len c j).2 pot) pot =
          pot + clusterPot sqrt soft m cls := by
        intro l
        induction l with
        | nil => intro pot; exact ⟨[], ⟨rfl, by simp, by simp, by simp, by simp⟩, by simp [clusterPot]⟩
        | cons a l ihl =>
          intro pot
          have e := childCell_grav pts mass res len c c' a
          have hpa := hp.2 a
          rw [← e] at hpa
          have h0 := (cellOf_len_le (res := res) hl c' a).2
          rw [← e] at h0
          obtain ⟨cls, u, hv⟩ := ih a (chain (refsFrom N kids (a + 1)) sib) _ (childCell (gravityRule pts mass) res len c a).2 _ pot
            (hf.2 a) (fun p hpm => hm p (by simp only [Oct.leaves, List.mem_flatMap]; exact ⟨a, List.mem_finRange a, hpm⟩)) h0 hpa
          obtain ⟨cls', u', hv'⟩ := ihl (pot + clusterPot sqrt soft m cls)
          refine ⟨cls ++ cls', ⟨?_, ?_, ?_, ?_, ?_⟩, ?_⟩
          · rw [List.map_append, List.flatten_append, u.parts, u'.parts, List.flatMap_cons]
          · intro cl h; rcases List.mem_append.1 h with h | h
            exacts [u.nonempty cl h, u'.nonempty cl h]
          · intro cl h; rcases List.mem_append.1 h with h | h
            exacts [u.centre cl h, u'.centre cl h]
          · intro cl h; rcases List.mem_append.1 h with h | h
            exacts [u.sep cl h, u'.sep cl h]
          · intro cl h; rcases List.mem_append.1 h with h | h
            exacts [u.allowed cl h, u'.allowed cl h]
          · rw [List.foldl_cons, hv, hv']
            simp only [clusterPot, List.map_append, List.sum_append]
            ring
      obtain ⟨cls, u, hv⟩ := this (List.finRange 8) pot
      exact ⟨cls, u, hv⟩
    · simp only [if_neg ho]
      refine ⟨[⟨(Oct.node k kids).leaves, w.s, treeDist2 periodic L w.s target⟩], ⟨by simp, ?_, ?_, ?_, ?_⟩, ?_⟩
      · intro cl hcl; rw [List.mem_singleton] at hcl; subst hcl; exact hf.1
      · intro cl hcl; rw [List.mem_singleton] at hcl; subst hcl; exact w3
      · intro cl hcl; rw [List.mem_singleton] at hcl; subst hcl; rfl
      · intro cl hcl; rw [List.mem_singleton] at hcl; subst hcl
        refine Or.inr ⟨len, hl, fun p hpm q hqm d => ?_, ?_⟩
        · have h1 := hp.1 p hpm (x p) (hm p hpm).2 d
          have h2 := hp.1 q hqm (x q) (hm q hqm).2 d
          rw [abs_le] at *
          constructor <;> linarith [h1.1, h1.2, h2.1, h2.2]
        · have := not_lt.1 ho
          rw [w1] at this
          simp only
          nlinarith
      · simp only [Bool.false_eq_true, if_false, clusterPot, List.map_cons, List.map_nil, List.sum_cons, List.sum_nil, add_zero, w2]

/-- The potential of coincident bodies. -/
theorem softPotential_zero {sqrt : K → K} (h0 : sqrt 0 = 0) {soft : K} (hs : 0 < soft) (M : K) :
    softPotential sqrt soft M 0 = -(M / soft) := by
  unfold softPotential
  simp only [h0]
  rw [if_neg (by simp; exact hs), if_pos (by norm_num)]
  field_simp
  ring

end HBT.OT
