import Verif.Lemmas.OctGravity
/-!
# Helper lemmas on oct-trees: the root cube, and a target inside the tree
-/
namespace HBT.OT
open HBT.Model HBT.Spec Oct
set_option linter.unusedSectionVars false
variable {K A S : Type} [Field K] [LinearOrder K] [IsStrictOrderedRing K]

theorem descend_centre (x : Fin 3 → K) (h : K) (c : Fin 3 → K) (m : Nat) (d : Fin 3) :
    (descend x h c m).2 d = pieceCentre (x d) h (c d) m := by
  induction m with
  | zero => rfl
  | succ m ih =>
    have e : (descend x h c m).1 / 2 = h / 2 ^ (m + 1) := by
      rw [descend_half, pow_succ]; field_simp
    rw [descend, pieceCentre]
    simp only [octantCenter, e, ih]

theorem digit_eq (x : Fin 3 → K) (h : K) (c : Fin 3 → K) (m : Nat) : digit x h c m = octDigit x h c m := by
  unfold digit octDigit octant
  simp only [descend_centre]
  split_ifs <;> rfl

theorem randomOctant_eq (rand : Nat → Nat) (n : Nat) : randomOctant rand n = min (rand n) 7 := by
  unfold randomOctant
  split_ifs <;> omega

/-- The range of an axis is attained. -/
theorem extents_attained (d : Fin 3) (P : K → Prop) : ∀ (rest : List (Fin 3 → K)) (b : K × K), P b.1 → P b.2 →
    (∀ y ∈ rest, P (y d)) →
    P (rest.foldl (fun b x => extend b (x d)) b).1 ∧ P (rest.foldl (fun b x => extend b (x d)) b).2
  | [], b, h1, h2, _ => ⟨h1, h2⟩
  | y :: rest, b, h1, h2, h => by
    have hy := h y (by simp)
    simp only [List.foldl_cons]
    refine extents_attained d P rest _ ?_ ?_ (fun x hx => h x (by simp [hx]))
    · unfold extend; split_ifs
      exacts [h1, hy, h1]
    · unfold extend; split_ifs
      exacts [hy, h2, h2]

theorem maxExtension_attained (e : Fin 3 → K × K) : ∃ d, maxExtension e = (e d).2 - (e d).1 := by
  unfold maxExtension
  simp only
  split_ifs
  exacts [⟨2, rfl⟩, ⟨1, rfl⟩, ⟨2, rfl⟩, ⟨0, rfl⟩]

theorem mem_take_lt {α : Type} {l : List α} {N : Nat} {y : α} (h : y ∈ l.take N) : ∃ p < N, l[p]? = some y := by
  obtain ⟨i, hi⟩ := List.mem_iff_getElem?.1 h
  have hlt : i < N := by
    by_contra hc
    rw [List.getElem?_eq_none (by simp; omega)] at hi
    cases hi
  rw [List.getElem?_take_of_lt hlt] at hi
  exact ⟨i, hlt, hi⟩

/-- The root cell of the build is the cube of the specification. -/
theorem rootCube_unique {pts : List (Fin 3 → K)} {N : Nat} (hN : 0 < N) (hl : N ≤ pts.length) {first : Fin 3 → K}
    (hf : pts[0]? = some first) {x : Nat → Fin 3 → K} (hx : ∀ p < N, pts[p]? = some (x p)) {h : K} {c : Fin 3 → K}
    (hr : RootCube x N h c) :
    let e := extent first ((pts.take N).drop 1)
    maxExtension e / 2 = h ∧ (fun d => ((e d).2 + (e d).1) / 2) = c := by
  intro e
  obtain ⟨lo, hi, h1, h2, h3, d0, h4⟩ := hr
  have hcons : pts.take N = first :: (pts.take N).drop 1 := by
    have : (pts.take N)[0]? = some first := by rw [List.getElem?_take_of_lt hN]; exact hf
    cases hh : pts.take N with
    | nil => rw [hh] at this; simp at this
    | cons a l => rw [hh] at this; simp at this; simp [this]
  have hmem : ∀ p < N, x p ∈ first :: (pts.take N).drop 1 := by
    intro p hp
    rw [← hcons]
    refine List.mem_iff_getElem?.2 ⟨p, ?_⟩
    rw [List.getElem?_take_of_lt hp]; exact hx p hp
  have hfx : x 0 = first := by
    have := hx 0 hN
    rw [hf] at this; exact (Option.some.inj this).symm
  have hatt : ∀ d, (∃ p < N, (e d).1 = x p d) ∧ ∃ p < N, (e d).2 = x p d := by
    intro d
    have h0 : ∃ p < N, first d = x p d := ⟨0, hN, by rw [hfx]⟩
    exact extents_attained d (fun v => ∃ p < N, v = x p d) _ (first d, first d) h0 h0 (fun y hy => by
      obtain ⟨p, hp, hpy⟩ := mem_take_lt (List.mem_of_mem_drop hy)
      rw [hx p hp] at hpy
      exact ⟨p, hp, by rw [Option.some.inj hpy]⟩)
  have heq : ∀ d, (e d).1 = lo d ∧ (e d).2 = hi d := by
    intro d
    obtain ⟨⟨p, hp, ep⟩, ⟨q, hq, eq⟩⟩ := hatt d
    obtain ⟨⟨p', hp', ep'⟩, ⟨q', hq', eq'⟩, hb⟩ := h1 d
    have b1 := extent_mem first ((pts.take N).drop 1) d (x p') (hmem p' hp')
    have b2 := extent_mem first ((pts.take N).drop 1) d (x q') (hmem q' hq')
    have b3 := hb p hp
    have b4 := hb q hq
    constructor
    · apply le_antisymm
      · rw [← ep']; exact b1.1
      · rw [ep]; exact b3.1
    · apply le_antisymm
      · rw [eq]; exact b4.2
      · rw [← eq']; exact b2.2
  constructor
  · apply le_antisymm
    · obtain ⟨d, hd⟩ := maxExtension_attained e
      rw [hd, (heq d).1, (heq d).2]
      linarith [h3 d]
    · have := maxExtension_ge e d0
      rw [(heq d0).1, (heq d0).2] at this
      linarith
  · funext d
    rw [(heq d).1, (heq d).2, h2 d]
    ring

theorem build_ends [Archimedean K] (rule : TreeRule K A S) (add : S → Nat → S) (res resHalf : K) (hres : res = 2 * resHalf)
    (hpos : 0 < resHalf) (rand : Nat → Nat) (old : List Int) (pts : List (Fin 3 → K)) (num : Nat) (hpts : pts ≠ [])
    (hnum : num ≤ pts.length) (hadd : ∀ s p, p < count pts num → rule.addParticle s p = .ok (add s p))
    {x : Nat → Fin 3 → K} (hx : ∀ p < count pts num, pts[p]? = some (x p)) {h : K} {c : Fin 3 → K}
    (hr : RootCube x (count pts num) h c)
    (hj : ∀ p < count pts num, ¬ ∃ d m, ∀ n, min (rand (d + n)) 7 = octDigit (x p) h c (m + n)) :
    ∃ fuel t, buildTree rule res resHalf rand fuel old pts num = .ok t := by
  have hlen : 0 < pts.length := List.length_pos_iff.2 hpts
  have hN : count pts num ≤ pts.length := by unfold count; split_ifs <;> omega
  have hN0 : 0 < count pts num := by unfold count; split_ifs <;> omega
  obtain ⟨first, hf⟩ : ∃ x, pts[0]? = some x := ⟨_, List.getElem?_eq_getElem hlen⟩
  obtain ⟨e1, e2⟩ := rootCube_unique hN0 hN hf hx hr
  obtain ⟨hl0, hcov⟩ := root_covers hN0 hN hf
  obtain ⟨hroot, -⟩ := root_holds (A := A) res pts (count pts num)
    (maxExtension (extent first ((pts.take (count pts num)).drop 1)))
    (fun d => ((extent first ((pts.take (count pts num)).drop 1) d).2 + (extent first ((pts.take (count pts num)).drop 1) d).1) / 2)
  obtain ⟨fuel, r, hr⟩ := insertAll_ends (A := A) res resHalf hres hpos rand pts _ hN _ _ hl0 hcov (by
    intro i hi y hy
    rw [hx i hi] at hy
    cases hy
    rw [e1, e2]
    rintro ⟨d, m, hdm⟩
    refine hj i hi ⟨d, m, fun n => ?_⟩
    rw [← digit_eq, ← hdm n, randomOctant_eq]) (List.range (count pts num)) 0 [.sons (List.replicate 8 (-1))]
    (fun _ => .empty) (fun i hi => List.mem_range.1 hi) hroot (fun _ => trivial)
  rcases buildTree_cases rule add res resHalf hres rand fuel old pts num hpts hnum hadd with hd | ⟨t, _, _, _, ht, _⟩
  · exfalso
    unfold buildTree at hd
    simp only [get_some hf, Outcome.bind_ok] at hd
    simp only [show (if num = 0 then pts.length else num) = count pts num from rfl] at hd
    rw [if_neg (show ¬ count pts num > pts.length by omega)] at hd
    rw [hr, Outcome.bind_ok] at hd
    rcases insertAll_holds (A := A) res resHalf hres rand pts (count pts num) hN _ _ hl0 hcov fuel (List.range (count pts num)) 0
      [.sons (List.replicate 8 (-1))] (fun _ => .empty) (fun i hi => List.mem_range.1 hi) hroot (fun _ => trivial) with h | h
    · rw [hr] at h; cases h
    · obtain ⟨cells, draws, kids, h1, h2, h3, h4⟩ := h
      rw [hr] at h1; cases h1
      rw [(root_holds (A := A) res pts (count pts num) 0 (fun _ => 0)).2, List.append_nil] at h4
      have hfull : (Oct.node 0 kids).Full := by
        refine ⟨?_, h3⟩
        intro hn
        rw [hn] at h4
        have := h4.length_eq
        simp at this
        omega
      have hln : (Oct.node 0 kids).leaves.Nodup := h4.nodup_iff.2 List.nodup_range
      have hip := perm_range_of h2.nodup h2.ids
      have hdp : depth (.node 0 kids) ≤ cells.length + 1 := by
        have h5 := depth_le_ids (.node 0 kids)
        have h6 := hip.length_eq
        rw [List.length_range] at h6
        omega
      obtain ⟨t, ht, -⟩ := updateNode_ok hadd (res := res) _ (cells.length + 1) hdp hfull h2.nodup hln 0 kids rfl
        ⟨cells, resizeNext old (count pts num)⟩ (-1) (maxExtension (extent first ((pts.take (count pts num)).drop 1)))
        (fun d => ((extent first ((pts.take (count pts num)).drop 1) d).2 + (extent first ((pts.take (count pts num)).drop 1) d).1) / 2)
        (resizeNext_length _ _) h2.repr
      change updateNode rule res (count pts num) (cells.length + 1) ⟨cells, resizeNext old (count pts num)⟩ 0 (-1) _ _ = _ at hd
      rw [ht] at hd; cases hd
  · exact ⟨fuel, t, ht⟩

/-! ## A target inside the tree -/

variable {m : Nat → K} {x : Nat → Fin 3 → K}

theorem coincident_centre {l : List Nat} {s : Fin 3 → K} (h : ∀ p ∈ l, x p = s) : IsCentre m x l s := by
  intro d
  induction l with
  | nil => simp [totalMass]
  | cons a l ih =>
    have := ih (fun p hp => h p (by simp [hp]))
    simp only [totalMass, List.map_cons, List.sum_cons] at this ⊢
    rw [add_mul, this, h a (by simp)]

theorem totalMass_erase {l : List Nat} {i : Nat} (h : i ∈ l) : totalMass m l = m i + totalMass m (l.erase i) := by
  have := ((List.perm_cons_erase h).map m).sum_eq
  simpa [totalMass] using this

theorem treeDist2_self {periodic : Bool} {L : K} (hL : periodic = true → 0 < L) (y : Fin 3 → K) :
    treeDist2 periodic L y y = 0 := by
  have : ∀ d, treeOffset periodic L y y d = 0 := by
    intro d
    unfold treeOffset
    cases periodic with
    | false => simp
    | true =>
      have := hL rfl
      simp only [if_true, sub_self]
      unfold nearest
      simp only
      rw [if_neg (by linarith), if_neg (by linarith)]
  unfold treeDist2
  simp [this]

/-- A cluster that holds the target is a point. -/
theorem own_cluster {periodic : Bool} {L angle2 : K} {i : Nat} {cl : Cluster K} (h0 : 0 ≤ angle2) (h3 : 3 * angle2 < 1)
    (hm : ∀ p ∈ cl.members, 0 < m p) (hi : i ∈ cl.members) (hc : IsCentre m x cl.members cl.centre)
    (hs : cl.sep2 = treeDist2 periodic L cl.centre (x i)) (ha : cl.Allowed angle2 x)
    (hbox : periodic = true → 0 < L ∧ ∀ p ∈ cl.members, InBox L (x p)) :
    (∀ p ∈ cl.members, x p = cl.centre) ∧ cl.sep2 = 0 := by
  have hne : cl.members ≠ [] := List.ne_nil_of_mem hi
  have main : ∀ p ∈ cl.members, x p = x i := by
    rcases ha with ⟨p, hp⟩ | ⟨len, hl, hd, ha⟩
    · rw [hp] at hi ⊢
      simp at hi ⊢
      rw [hi]
    · have hoff : ∀ d, |treeOffset periodic L cl.centre (x i) d| ≤ len := by
        intro d
        have hb := centre_between hc hm hne d (lo := x i d - len) (hi := x i d + len) (fun p hp => by
          have := abs_le.1 (hd p hp i hi d)
          constructor <;> linarith [this.1, this.2])
        have hraw : |cl.centre d - x i d| ≤ len := by
          rw [abs_le]; constructor <;> linarith [hb.1, hb.2]
        unfold treeOffset
        cases periodic with
        | false => simpa using hraw
        | true =>
          obtain ⟨hL, hin⟩ := hbox rfl
          have c1 := centre_inBox hc hm hne hin d
          have c2 := hin i hi d
          have := nearest_min hL (d := cl.centre d - x i d) (by rw [abs_le]; constructor <;> linarith [c1.1, c1.2, c2.1, c2.2]) 0
          simp only [if_true]
          simp only [Int.cast_zero, zero_mul, add_zero] at this
          exact this.trans hraw
      have hsq : ∀ d, treeOffset periodic L cl.centre (x i) d * treeOffset periodic L cl.centre (x i) d ≤ len ^ 2 := by
        intro d
        have := abs_le.1 (hoff d)
        nlinarith [this.1, this.2]
      have hle : cl.sep2 ≤ 3 * len ^ 2 := by
        rw [hs]
        unfold treeDist2
        linarith [hsq 0, hsq 1, hsq 2]
      have hlen : len = 0 := by
        by_contra hne
        have hp : 0 < len ^ 2 := by positivity
        nlinarith
      intro p hp
      funext d
      have := hd p hp i hi d
      rw [hlen] at this
      have := abs_nonpos_iff.1 this
      linarith
  have hcen : cl.centre = x i := by
    funext d
    have := centre_between hc hm hne d (lo := x i d) (hi := x i d) (fun p hp => by rw [main p hp]; exact ⟨le_rfl, le_rfl⟩)
    exact le_antisymm this.2 this.1
  refine ⟨fun p hp => by rw [main p hp, hcen], ?_⟩
  rw [hs, hcen]
  exact treeDist2_self (fun h => (hbox h).1) _

theorem mem_flatten_split : ∀ {cls : List (Cluster K)} {i : Nat}, i ∈ (cls.map Cluster.members).flatten →
    ∃ a cl b, cls = a ++ cl :: b ∧ i ∈ cl.members ∧ i ∉ (a.map Cluster.members).flatten
  | [], i, h => by simp at h
  | cl :: cls, i, h => by
    by_cases hi : i ∈ cl.members
    · exact ⟨[], cl, cls, rfl, hi, by simp⟩
    · rw [List.map_cons, List.flatten_cons, List.mem_append] at h
      obtain ⟨a, cl', b, e, h1, h2⟩ := mem_flatten_split (h.resolve_left hi)
      refine ⟨cl :: a, cl', b, by rw [e]; rfl, h1, ?_⟩
      rw [List.map_cons, List.flatten_cons, List.mem_append]
      rintro (h | h)
      exacts [hi h, h2 h]

/-- Removing the target from the clusters removes its own potential. -/
theorem remove_self {periodic : Bool} {L angle2 : K} {sqrt : K → K} {soft : K} {i : Nat} {l : List Nat} {cls : List (Cluster K)}
    (hu : Used periodic L angle2 m x (x i) l cls) (hn : l.Nodup) (hi : i ∈ l) (h0 : 0 ≤ angle2) (h3 : 3 * angle2 < 1)
    (hm : ∀ p ∈ l, 0 < m p) (hbox : periodic = true → 0 < L ∧ ∀ p ∈ l, InBox L (x p)) (hq : sqrt 0 = 0) (hs : 0 < soft) :
    ∃ cls', Used periodic L angle2 m x (x i) (l.erase i) cls' ∧
      m i / soft + clusterPot sqrt soft m cls = clusterPot sqrt soft m cls' := by
  obtain ⟨a, cl, b, e, hcl, hna⟩ := mem_flatten_split (by rw [hu.parts]; exact hi)
  have hmem : cl ∈ cls := by rw [e]; simp
  have hsub : ∀ p ∈ cl.members, p ∈ l := by
    intro p hp
    rw [← hu.parts]
    exact List.mem_flatten.2 ⟨_, List.mem_map.2 ⟨cl, hmem, rfl⟩, hp⟩
  obtain ⟨hco, hz⟩ := own_cluster h0 h3 (fun p hp => hm p (hsub p hp)) hcl (hu.centre cl hmem) (hu.sep cl hmem) (hu.allowed cl hmem)
    (fun h => ⟨(hbox h).1, fun p hp => (hbox h).2 p (hsub p hp)⟩)
  have hl : l.erase i = (a.map Cluster.members).flatten ++ (cl.members.erase i ++ (b.map Cluster.members).flatten) := by
    rw [← hu.parts, e, List.map_append, List.flatten_append, List.erase_append_right _ hna, List.map_cons, List.flatten_cons,
      List.erase_append_left _ hcl]
  have hself : m i / soft + softPotential sqrt soft (totalMass m cl.members) cl.sep2 =
      softPotential sqrt soft (totalMass m (cl.members.erase i)) cl.sep2 := by
    rw [hz, softPotential_zero hq hs, softPotential_zero hq hs, totalMass_erase hcl]
    ring
  by_cases hemp : cl.members.erase i = []
  · refine ⟨a ++ b, ⟨?_, ?_, ?_, ?_, ?_⟩, ?_⟩
    · rw [hl, hemp, List.map_append, List.flatten_append, List.nil_append]
    · intro c hc; exact hu.nonempty c (by rw [e]; simp only [List.mem_append, List.mem_cons] at hc ⊢; tauto)
    · intro c hc; exact hu.centre c (by rw [e]; simp only [List.mem_append, List.mem_cons] at hc ⊢; tauto)
    · intro c hc; exact hu.sep c (by rw [e]; simp only [List.mem_append, List.mem_cons] at hc ⊢; tauto)
    · intro c hc; exact hu.allowed c (by rw [e]; simp only [List.mem_append, List.mem_cons] at hc ⊢; tauto)
    · have h00 : softPotential sqrt soft (totalMass m (cl.members.erase i)) cl.sep2 = 0 := by
        rw [hemp, hz, softPotential_zero hq hs]
        simp [totalMass]
      rw [h00] at hself
      rw [e]
      simp only [clusterPot, List.map_append, List.map_cons, List.sum_append, List.sum_cons]
      linarith
  · have hin : ∀ p ∈ cl.members.erase i, p ∈ cl.members := fun p hp => List.mem_of_mem_erase hp
    refine ⟨a ++ ⟨cl.members.erase i, cl.centre, cl.sep2⟩ :: b, ⟨?_, ?_, ?_, ?_, ?_⟩, ?_⟩
    · rw [hl, List.map_append, List.flatten_append, List.map_cons, List.flatten_cons]
    · intro c hc
      rcases List.mem_append.1 hc with hc | hc
      · exact hu.nonempty c (by rw [e]; simp [hc])
      · rcases List.mem_cons.1 hc with rfl | hc
        · exact hemp
        · exact hu.nonempty c (by rw [e]; simp [hc])
    · intro c hc
      rcases List.mem_append.1 hc with hc | hc
      · exact hu.centre c (by rw [e]; simp [hc])
      · rcases List.mem_cons.1 hc with rfl | hc
        · exact coincident_centre (fun p hp => hco p (hin p hp))
        · exact hu.centre c (by rw [e]; simp [hc])
    · intro c hc
      rcases List.mem_append.1 hc with hc | hc
      · exact hu.sep c (by rw [e]; simp [hc])
      · rcases List.mem_cons.1 hc with rfl | hc
        · exact hu.sep cl hmem
        · exact hu.sep c (by rw [e]; simp [hc])
    · intro c hc
      rcases List.mem_append.1 hc with hc | hc
      · exact hu.allowed c (by rw [e]; simp [hc])
      · rcases List.mem_cons.1 hc with rfl | hc
        · refine Or.inr ⟨0, le_rfl, fun p hp q hq d => ?_, ?_⟩
          · rw [hco p (hin p hp), hco q (hin q hq)]; simp
          · simp [hz]
        · exact hu.allowed c (by rw [e]; simp [hc])
    · rw [e]
      simp only [clusterPot, List.map_append, List.map_cons, List.sum_append, List.sum_cons]
      linarith

/-- The softened potential is linear in the mass. -/
theorem softPotential_linear (sqrt : K → K) (soft r2 : K) : ∃ k, ∀ M, softPotential sqrt soft M r2 = M * k := by
  unfold softPotential
  simp only
  split_ifs
  · exact ⟨-(1 / sqrt r2), fun M => by ring⟩
  · exact ⟨_, fun M => by rw [mul_assoc]⟩
  · exact ⟨_, fun M => by rw [mul_assoc]⟩

theorem softPotential_total (sqrt : K → K) (soft r2 : K) (l : List Nat) :
    softPotential sqrt soft (totalMass m l) r2 = (l.map (fun p => softPotential sqrt soft (m p) r2)).sum := by
  obtain ⟨k, hk⟩ := softPotential_linear sqrt soft r2
  simp only [hk]
  induction l with
  | nil => simp [totalMass]
  | cons a l ih => simp only [totalMass, List.map_cons, List.sum_cons] at ih ⊢; rw [add_mul, ih]

/-- Clusters that are points sum up like their particles. -/
theorem point_clusters {sqrt : K → K} {soft : K} {f : Nat → K} : ∀ {cls : List (Cluster K)},
    (∀ cl ∈ cls, ∀ p ∈ cl.members, f p = cl.sep2) →
    clusterPot sqrt soft m cls = (((cls.map Cluster.members).flatten).map (fun p => softPotential sqrt soft (m p) (f p))).sum
  | [], _ => by simp [clusterPot]
  | cl :: cls, h => by
    have ih := point_clusters (cls := cls) (sqrt := sqrt) (soft := soft) (fun c hc => h c (by simp [hc]))
    have : cl.members.map (fun p => softPotential sqrt soft (m p) (f p)) =
        cl.members.map (fun p => softPotential sqrt soft (m p) cl.sep2) :=
      List.map_congr_left (fun p hp => by rw [h cl (by simp) p hp])
    simp only [clusterPot] at ih
    simp only [clusterPot, List.map_cons, List.sum_cons, List.flatten_cons, List.map_append, List.sum_append, this]
    rw [ih, softPotential_total]

end HBT.OT
