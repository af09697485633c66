import Verif.Lemmas.OctRoot
import Mathlib.Data.Rat.Floor
import Mathlib.Algebra.Order.Ring.Rat
import Mathlib.Tactic.FinCases
import Mathlib.Tactic.IntervalCases
import Mathlib.Data.Fintype.Basic
/-!
# C41: the oct-trees hold every particle once, node masses add up, and the potential of the gravity
tree is a sum over all other particles
-/
set_option linter.unusedSectionVars false
namespace HBT.Props
open HBT.Model HBT.Spec HBT.OT
section Field
variable {K : Type} [Field K] [LinearOrder K] [IsStrictOrderedRing K] {A S : Type}

/-- What a tree was asked to hold: the first `num` particles, or all of them if `num` is zero; `x p` is
the position of particle `p`. -/
structure Content (pts : List (Fin 3 → K)) (num N : Nat) (x : Nat → Fin 3 → K) : Prop where
  some : pts ≠ []
  enough : num ≤ pts.length
  count : N = if num = 0 then pts.length else num
  pos : ∀ p < N, pts[p]? = Option.some (x p)

/-- The particles have positive masses `m`. -/
def Masses (mass : List K) (N : Nat) (m : Nat → K) : Prop := ∀ p < N, mass[p]? = some (m p) ∧ 0 < m p

theorem gravity_add {pts : List (Fin 3 → K)} {mass : List K} {num N : Nat} {x : Nat → Fin 3 → K} {m : Nat → K}
    (hc : Content pts num N x) (hm : Masses mass N m) (s : K × (Fin 3 → K)) (p : Nat) (hp : p < N) :
    (gravityRule pts mass).addParticle s p = .ok (gravAdd m x s p) := by
  simp [gravityRule, get_some (hm p hp).1, get_some (hc.pos p hp), gravAdd]

/-- C41. Building a search tree never reads or writes outside its arrays, whatever the particles, the
random numbers and the previous content of the tree: it returns a tree or goes on forever. -/
theorem C41_geo_safe (res resHalf : K) (hres : res = 2 * resHalf) (rand : Nat → Nat) (fuel : Nat) (old : List Int)
    (pts : List (Fin 3 → K)) (num N : Nat) (x : Nat → Fin 3 → K) (hc : Content pts num N x) :
    buildTree geoRule res resHalf rand fuel old pts num = .diverge ∨
    ∃ t, buildTree geoRule res resHalf rand fuel old pts num = .ok t := by
  rcases buildTree_cases geoRule geoAdd res resHalf hres rand fuel old pts num hc.some hc.enough (fun _ _ _ => rfl) with
    h | ⟨t, _, _, _, h, _⟩
  exacts [Or.inl h, Or.inr ⟨t, h⟩]

/-- C41. The same for the gravity tree. -/
theorem C41_gravity_safe (res resHalf : K) (hres : res = 2 * resHalf) (rand : Nat → Nat) (fuel : Nat) (old : List Int)
    (pts : List (Fin 3 → K)) (mass : List K) (num N : Nat) (x : Nat → Fin 3 → K) (m : Nat → K) (hc : Content pts num N x)
    (hm : Masses mass N m) :
    buildTree (gravityRule pts mass) res resHalf rand fuel old pts num = .diverge ∨
    ∃ t, buildTree (gravityRule pts mass) res resHalf rand fuel old pts num = .ok t := by
  rcases buildTree_cases (gravityRule pts mass) (gravAdd m x) res resHalf hres rand fuel old pts num hc.some hc.enough
    (fun s p hp => gravity_add hc hm s p (by rw [hc.count]; exact hp)) with h | ⟨t, _, _, _, h, _⟩
  exacts [Or.inl h, Or.inr ⟨t, h⟩]

/-- C41. Building ends, coincident particles included, unless the random octants from some draw on
repeat forever the octants that one of the particles falls into when the root cube is cut again and
again. -/
theorem C41_geo_ends [FloorRing K] (res resHalf : K) (hres : res = 2 * resHalf) (hpos : 0 < resHalf) (rand : Nat → Nat)
    (old : List Int) (pts : List (Fin 3 → K)) (num N : Nat) (x : Nat → Fin 3 → K) (hc : Content pts num N x)
    (h : K) (c : Fin 3 → K) (hr : RootCube x N h c)
    (hrand : ∀ p < N, ¬ ∃ i j, ∀ n, min (rand (i + n)) 7 = octDigit (x p) h c (j + n)) :
    ∃ fuel t, buildTree geoRule res resHalf rand fuel old pts num = .ok t := by
  have : Archimedean K := FloorRing.archimedean K
  obtain ⟨h1, h2, h3, h4⟩ := hc
  subst h3
  exact build_ends geoRule geoAdd res resHalf hres hpos rand old pts num h1 h2 (fun _ _ _ => rfl) h4 hr hrand

/-- C41. The same for the gravity tree. -/
theorem C41_gravity_ends [FloorRing K] (res resHalf : K) (hres : res = 2 * resHalf) (hpos : 0 < resHalf) (rand : Nat → Nat)
    (old : List Int) (pts : List (Fin 3 → K)) (mass : List K) (num N : Nat) (x : Nat → Fin 3 → K) (m : Nat → K)
    (hc : Content pts num N x) (hm : Masses mass N m) (h : K) (c : Fin 3 → K) (hr : RootCube x N h c)
    (hrand : ∀ p < N, ¬ ∃ i j, ∀ n, min (rand (i + n)) 7 = octDigit (x p) h c (j + n)) :
    ∃ fuel t, buildTree (gravityRule pts mass) res resHalf rand fuel old pts num = .ok t := by
  have : Archimedean K := FloorRing.archimedean K
  have ha := gravity_add hc hm
  obtain ⟨h1, h2, h3, h4⟩ := hc
  subst h3
  exact build_ends (gravityRule pts mass) (gravAdd m x) res resHalf hres hpos rand old pts num h1 h2 ha h4 hr hrand

theorem order_full {rule : TreeRule K A S} {add : S → Nat → S} {res : K} {pts : List (Fin 3 → K)} {N : Nat} {t : Tree K A}
    {len : K} {c : Fin 3 → K} {kids : Fin 8 → Oct} (h : Built rule add res pts N t len c kids) :
    (order N (.node 0 kids)).Perm (List.range (N + t.cells.length)) := by
  refine (order_perm N _).trans ?_
  rw [List.range_add]
  exact h.leaves.append (h.ids.map _)

theorem walk_full {rule : TreeRule K A S} {add : S → Nat → S} {res : K} {pts : List (Fin 3 → K)} {N : Nat} {t : Tree K A}
    {len : K} {c : Fin 3 → K} {kids : Fin 8 → Oct} (h : Built rule add res pts N t len c kids) :
    Path N (links N t) N (-1) (order N (.node 0 kids)) := by
  have := Done.path (.node 0 kids) (-1) len c (by simp) (fun p hp => List.mem_range.1 (h.leaves.mem_iff.1 hp)) h.done
  simpa [Oct.ref] using this

/-- C41. In a finished search tree the walk from the root that enters every node ends, and meets every
particle and every node exactly once. -/
theorem C41_geo_walk (res resHalf : K) (hres : res = 2 * resHalf) (rand : Nat → Nat) (fuel : Nat) (old : List Int)
    (pts : List (Fin 3 → K)) (num N : Nat) (x : Nat → Fin 3 → K) (hc : Content pts num N x) (t : Tree K Int)
    (ht : buildTree geoRule res resHalf rand fuel old pts num = .ok t) :
    ∃ l, Path N (links N t) N (-1) l ∧ l.Perm (List.range (N + t.cells.length)) := by
  obtain ⟨h1, h2, h3, h4⟩ := hc
  subst h3
  obtain ⟨len, c, kids, hb⟩ := built_of_ok hres h1 h2 (fun _ _ _ => rfl) ht (add := geoAdd)
  exact ⟨_, walk_full hb, order_full hb⟩

/-- C41. The same for the gravity tree. -/
theorem C41_gravity_walk (res resHalf : K) (hres : res = 2 * resHalf) (rand : Nat → Nat) (fuel : Nat) (old : List Int)
    (pts : List (Fin 3 → K)) (mass : List K) (num N : Nat) (x : Nat → Fin 3 → K) (m : Nat → K) (hc : Content pts num N x)
    (hm : Masses mass N m) (t : Tree K K)
    (ht : buildTree (gravityRule pts mass) res resHalf rand fuel old pts num = .ok t) :
    ∃ l, Path N (links N t) N (-1) l ∧ l.Perm (List.range (N + t.cells.length)) := by
  have ha := gravity_add hc hm
  obtain ⟨h1, h2, h3, h4⟩ := hc
  subst h3
  obtain ⟨len, c, kids, hb⟩ := built_of_ok hres h1 h2 ha ht
  exact ⟨_, walk_full hb, order_full hb⟩

theorem order_particles (N : Nat) (o : Oct) (h : ∀ p ∈ o.leaves, p < N) :
    ((order N o).filter (fun p => decide (p < N))).Perm o.leaves := by
  refine ((order_perm N o).filter _).trans ?_
  rw [List.filter_append]
  have e1 : o.leaves.filter (fun p => decide (p < N)) = o.leaves := List.filter_eq_self.2 (fun p hp => by simpa using h p hp)
  have e2 : (o.ids.map (N + ·)).filter (fun p => decide (p < N)) = [] := by
    rw [List.filter_eq_nil_iff]
    intro p hp
    obtain ⟨q, -, rfl⟩ := List.mem_map.1 hp
    simp
  rw [e1, e2, List.append_nil]

/-- C41. Every node of a finished search tree is complete. Walking through it from its number to its
sibling one meets certain particles, each once, and at least one: its `mass` is their number, and
all of them lie in the cube of side `len` around its centre `s`. -/
theorem C41_geo_nodes (res resHalf : K) (hres : res = 2 * resHalf) (rand : Nat → Nat) (fuel : Nat) (old : List Int)
    (pts : List (Fin 3 → K)) (num N : Nat) (x : Nat → Fin 3 → K) (hc : Content pts num N x) (t : Tree K Int)
    (ht : buildTree geoRule res resHalf rand fuel old pts num = .ok t) (k : Nat) (hk : k < t.cells.length) :
    ∃ w l ps, t.cells[k]? = some (.way w) ∧ Path N (links N t) ((N + k : Nat) : Int) w.sibling l ∧ l.Nodup ∧
      ps.Perm (l.filter (fun p => decide (p < N))) ∧ ps ≠ [] ∧ w.mass = ps.length ∧
      ∀ p ∈ ps, ∀ d, |x p d - w.s d| ≤ w.len / 2 := by
  obtain ⟨h1, h2, h3, h4⟩ := hc
  subst h3
  obtain ⟨len, c, kids, hb⟩ := built_of_ok hres h1 h2 (fun _ _ _ => rfl) ht (add := geoAdd)
  have hmem := hb.ids.mem_iff.2 (List.mem_range.2 hk)
  obtain ⟨kids', sib, len', c', c'', hd, hp, rfl, hf, hsub, hlv⟩ := Done.find Eq (fun len c c' j e => by
    subst e; rw [childCell_geo]; exact ⟨rfl, rfl⟩) (.node 0 kids) (-1) len c c hb.done hb.placed rfl hb.full k hmem
  obtain ⟨w1, w2, w3⟩ := geo_way res (count pts num) k kids' sib len' c'
  have hlt : ∀ p ∈ (Oct.node k kids').leaves, p < count pts num :=
    fun p hp => List.mem_range.1 (hb.leaves.mem_iff.1 (hlv.subset hp))
  have hnd : (order (count pts num) (.node 0 kids)).Nodup := (order_full hb).nodup_iff.2 List.nodup_range
  refine ⟨_, order (count pts num) (.node k kids'), (Oct.node k kids').leaves, hd.1, ?_, hsub.nodup hnd,
    (order_particles _ _ hlt).symm, hf.1, w1, ?_⟩
  · have := Done.path (.node k kids') sib len' c' (by simp) hlt hd
    exact this
  · intro p hpm d
    rw [w2, w3]
    exact hp.1 p hpm (x p) (h4 p (hlt p hpm)) d

/-- C41. Every node of a finished gravity tree is complete. Walking through it from its number to its
sibling one meets certain particles, each once, and at least one: its `mass` is their total mass,
`s` is their centre of mass, and they fit in a cube of side `len`. -/
theorem C41_gravity_nodes (res resHalf : K) (hres : res = 2 * resHalf) (rand : Nat → Nat) (fuel : Nat) (old : List Int)
    (pts : List (Fin 3 → K)) (mass : List K) (num N : Nat) (x : Nat → Fin 3 → K) (m : Nat → K) (hc : Content pts num N x)
    (hm : Masses mass N m) (t : Tree K K)
    (ht : buildTree (gravityRule pts mass) res resHalf rand fuel old pts num = .ok t) (k : Nat) (hk : k < t.cells.length) :
    ∃ w l ps, t.cells[k]? = some (.way w) ∧ Path N (links N t) ((N + k : Nat) : Int) w.sibling l ∧ l.Nodup ∧
      ps.Perm (l.filter (fun p => decide (p < N))) ∧ ps ≠ [] ∧ w.mass = totalMass m ps ∧ IsCentre m x ps w.s ∧
      ∀ p ∈ ps, ∀ q ∈ ps, ∀ d, |x p d - x q d| ≤ w.len := by
  have ha := gravity_add hc hm
  obtain ⟨h1, h2, h3, h4⟩ := hc
  subst h3
  obtain ⟨len, c, kids, hb⟩ := built_of_ok hres h1 h2 ha ht
  have hmem := hb.ids.mem_iff.2 (List.mem_range.2 hk)
  obtain ⟨kids', sib, len', c', c'', hd, hp, -, hf, hsub, hlv⟩ := Done.find (fun _ _ => True)
    (fun len c c' j _ => ⟨childCell_grav pts mass res len c c' j, trivial⟩)
    (.node 0 kids) (-1) len c c hb.done hb.placed trivial hb.full k hmem
  have hlt : ∀ p ∈ (Oct.node k kids').leaves, p < count pts num :=
    fun p hp => List.mem_range.1 (hb.leaves.mem_iff.1 (hlv.subset hp))
  obtain ⟨w1, w2, w3⟩ := grav_way pts mass m x res (count pts num) k kids' sib len' c' hf (fun p hp => (hm p (hlt p hp)).2)
  have hnd : (order (count pts num) (.node 0 kids)).Nodup := (order_full hb).nodup_iff.2 List.nodup_range
  refine ⟨_, order (count pts num) (.node k kids'), (Oct.node k kids').leaves, hd.1, ?_, hsub.nodup hnd,
    (order_particles _ _ hlt).symm, hf.1, w2, w3, ?_⟩
  · have := Done.path (.node k kids') sib len' c' (by simp) hlt hd
    exact this
  · intro p hpm q hqm d
    rw [w1]
    have e1 := abs_le.1 (hp.1 p hpm (x p) (h4 p (hlt p hpm)) d)
    have e2 := abs_le.1 (hp.1 q hqm (x q) (h4 q (hlt q hqm)) d)
    rw [abs_le]
    constructor <;> linarith [e1.1, e1.2, e2.1, e2.2]

/-! ## The potential -/

theorem potential_used {res resHalf : K} (hres : res = 2 * resHalf) {rand : Nat → Nat} {fuel : Nat} {old : List Int}
    {pts : List (Fin 3 → K)} {mass : List K} {num N : Nat} {x : Nat → Fin 3 → K} {m : Nat → K} (hc : Content pts num N x)
    (hm : Masses mass N m) {t : Tree K K}
    (ht : buildTree (gravityRule pts mass) res resHalf rand fuel old pts num = .ok t)
    (periodic : Bool) (L : K) (sqrt : K → K) (soft angle2 G scale : K) (target : Fin 3 → K) (targetMass : K) :
    ∃ l cls, l.Perm (List.range N) ∧ Used periodic L angle2 m x target l cls ∧
      evaluatePotential periodic L sqrt soft angle2 G scale pts mass N t target targetMass =
        .ok ((targetMass / soft + clusterPot sqrt soft m cls) * G / scale) := by
  have ha := gravity_add hc hm
  have hpos := hc.pos
  obtain ⟨h1, h2, h3, h4⟩ := hc
  obtain ⟨len, c, kids, hb⟩ := built_of_ok (rand := rand) (fuel := fuel) (old := old) hres h1 h2
    (fun s p hp => ha s p (by rw [h3]; exact hp)) ht
  have hN : count pts num = N := h3.symm
  rw [hN] at hb
  have hlt : ∀ p ∈ (Oct.node 0 kids).leaves, p < N := fun p hp => List.mem_range.1 (hb.leaves.mem_iff.1 hp)
  obtain ⟨cls, hu, hv⟩ := visit_potential (mass := mass) periodic L sqrt soft angle2 target N (.node 0 kids) (-1) len c c (targetMass / soft)
    hb.full (fun p hp => ⟨(hm p (hlt p hp)).2, hpos p (hlt p hp)⟩) hb.lenN hb.placed (m := m) (x := x)
  refine ⟨_, cls, hb.leaves, hu, ?_⟩
  unfold evaluatePotential
  have := hb.walk (particle := fun p pot => do
      let x ← Outcome.get pts p
      let m ← Outcome.get mass p
      .ok (pot + softPotential sqrt soft m (treeDist2 periodic L x target)))
    (pf := potStep periodic L sqrt soft m x target)
    (fun p r hp => by
      simp [get_some (hm p hp).1, get_some (hpos p hp), potStep])
    (potNode periodic L sqrt soft angle2 target) (targetMass / soft)
  rw [hv] at this
  unfold potNode at this
  rw [this, Outcome.bind_ok]

theorem used_clustering [FloorRing K] {periodic : Bool} {L angle2 : K} {m : Nat → K} {x : Nat → Fin 3 → K} {target : Fin 3 → K}
    {l l' : List Nat} {cls : List (Cluster K)} (hl : l.Perm l') (hm : ∀ p ∈ l, 0 < m p)
    (hbox : periodic = true → 0 < L ∧ InBox L target ∧ ∀ p ∈ l, InBox L (x p)) (hu : Used periodic L angle2 m x target l cls) :
    Clustering periodic L angle2 m x target l' cls := by
  refine ⟨by rw [hu.parts]; exact hl, hu.nonempty, hu.centre, fun cl hcl => ?_, hu.allowed⟩
  have hsub : ∀ p ∈ cl.members, p ∈ l := by
    intro p hp
    rw [← hu.parts]
    exact List.mem_flatten.2 ⟨_, List.mem_map.2 ⟨cl, hcl, rfl⟩, hp⟩
  rw [hu.sep cl hcl]
  refine dist_separation (fun h => ?_)
  obtain ⟨b1, b2, b3⟩ := hbox h
  exact ⟨b1, centre_inBox (hu.centre cl hcl) (fun p hp => hm p (hsub p hp)) (hu.nonempty cl hcl) (fun p hp => b3 p (hsub p hp)), b2⟩

/-- C41. The potential of the gravity tree at any point is the sum of the softened potentials of
clusters that hold every particle of the tree exactly once. Every cluster is a single particle, or
sits in a cube that is small compared with its distance; its potential is that of its total mass
at the separation (nearest image, if periodic) of its centre of mass. -/
theorem C41_potential [FloorRing K] (res resHalf : K) (hres : res = 2 * resHalf) (rand : Nat → Nat) (fuel : Nat) (old : List Int)
    (pts : List (Fin 3 → K)) (mass : List K) (num N : Nat) (x : Nat → Fin 3 → K) (m : Nat → K) (hc : Content pts num N x)
    (hm : Masses mass N m) (t : Tree K K)
    (ht : buildTree (gravityRule pts mass) res resHalf rand fuel old pts num = .ok t)
    (periodic : Bool) (L : K) (sqrt : K → K) (soft angle2 G scale : K) (target : Fin 3 → K)
    (hbox : periodic = true → 0 < L ∧ InBox L target ∧ ∀ p < N, InBox L (x p)) :
    ∃ cls, Clustering periodic L angle2 m x target (List.range N) cls ∧
      evaluatePotential periodic L sqrt soft angle2 G scale pts mass N t target 0 =
        .ok ((cls.map (fun cl => softPotential sqrt soft (totalMass m cl.members) cl.sep2)).sum * G / scale) := by
  obtain ⟨l, cls, hl, hu, e⟩ := potential_used hres hc hm ht periodic L sqrt soft angle2 G scale target 0
  have hlt : ∀ p ∈ l, p < N := fun p hp => List.mem_range.1 (hl.mem_iff.1 hp)
  refine ⟨cls, used_clustering hl (fun p hp => (hm p (hlt p hp)).2) (fun h => ?_) hu, ?_⟩
  · obtain ⟨b1, b2, b3⟩ := hbox h
    exact ⟨b1, b2, fun p hp => b3 p (hlt p hp)⟩
  · rw [e, zero_div, zero_add]; rfl

theorem potential_self [FloorRing K] {res resHalf : K} (hres : res = 2 * resHalf) {rand : Nat → Nat} {fuel : Nat} {old : List Int}
    {pts : List (Fin 3 → K)} {mass : List K} {num N : Nat} {x : Nat → Fin 3 → K} {m : Nat → K} (hc : Content pts num N x)
    (hm : Masses mass N m) {t : Tree K K}
    (ht : buildTree (gravityRule pts mass) res resHalf rand fuel old pts num = .ok t)
    (periodic : Bool) (L : K) (sqrt : K → K) (soft angle2 G scale : K) (i : Nat) (hi : i < N)
    (hbox : periodic = true → 0 < L ∧ ∀ p < N, InBox L (x p)) (h0 : 0 ≤ angle2) (h3 : 3 * angle2 < 1)
    (hq : sqrt 0 = 0) (hs : 0 < soft) :
    ∃ cls, Clustering periodic L angle2 m x (x i) ((List.range N).erase i) cls ∧
      evaluatePotential periodic L sqrt soft angle2 G scale pts mass N t (x i) (m i) =
        .ok (clusterPot sqrt soft m cls * G / scale) := by
  obtain ⟨l, cls, hl, hu, e⟩ := potential_used hres hc hm ht periodic L sqrt soft angle2 G scale (x i) (m i)
  have hlt : ∀ p ∈ l, p < N := fun p hp => List.mem_range.1 (hl.mem_iff.1 hp)
  obtain ⟨cls', hu', e'⟩ := remove_self (sqrt := sqrt) (soft := soft) hu (hl.nodup_iff.2 List.nodup_range)
    (hl.mem_iff.2 (List.mem_range.2 hi)) h0 h3
    (fun p hp => (hm p (hlt p hp)).2) (fun h => ⟨(hbox h).1, fun p hp => (hbox h).2 p (hlt p hp)⟩) hq hs
  refine ⟨cls', used_clustering (hl.erase i) (fun p hp => (hm p (hlt p (List.mem_of_mem_erase hp))).2) (fun h => ?_) hu', ?_⟩
  · exact ⟨(hbox h).1, (hbox h).2 i hi, fun p hp => (hbox h).2 p (hlt p (List.mem_of_mem_erase hp))⟩
  · rw [e, e']

/-- C41. At a particle of the tree, called with the mass of that particle, the potential is exactly that
of all other particles: the particle itself does not contribute (opening angle below `1/√3`, the
default is 0.45). -/
theorem C41_no_self_potential [FloorRing K] (res resHalf : K) (hres : res = 2 * resHalf) (rand : Nat → Nat) (fuel : Nat)
    (old : List Int) (pts : List (Fin 3 → K)) (mass : List K) (num N : Nat) (x : Nat → Fin 3 → K) (m : Nat → K)
    (hc : Content pts num N x) (hm : Masses mass N m) (t : Tree K K)
    (ht : buildTree (gravityRule pts mass) res resHalf rand fuel old pts num = .ok t)
    (periodic : Bool) (L : K) (sqrt : K → K) (soft angle2 G scale : K) (i : Nat) (hi : i < N)
    (hbox : periodic = true → 0 < L ∧ ∀ p < N, InBox L (x p)) (h0 : 0 ≤ angle2) (h3 : 3 * angle2 < 1)
    (hq : sqrt 0 = 0) (hs : 0 < soft) :
    ∃ cls, Clustering periodic L angle2 m x (x i) ((List.range N).erase i) cls ∧
      evaluatePotential periodic L sqrt soft angle2 G scale pts mass N t (x i) (m i) =
        .ok ((cls.map (fun cl => softPotential sqrt soft (totalMass m cl.members) cl.sep2)).sum * G / scale) :=
  potential_self hres hc hm ht periodic L sqrt soft angle2 G scale i hi hbox h0 h3 hq hs

theorem point_members {m : Nat → K} {x : Nat → Fin 3 → K} {cl : Cluster K} (hm : ∀ p ∈ cl.members, 0 < m p)
    (hc : IsCentre m x cl.members cl.centre) (ha : cl.Allowed 0 x) : ∀ p ∈ cl.members, x p = cl.centre := by
  have main : ∀ p ∈ cl.members, ∀ q ∈ cl.members, x p = x q := by
    rcases ha with ⟨p, hp⟩ | ⟨len, hl, hd, hz⟩
    · rw [hp]; simp
    · have hlen : len = 0 := by
        rw [zero_mul] at hz
        exact pow_eq_zero_iff (two_ne_zero) |>.1 (le_antisymm hz (sq_nonneg len))
      intro p hp q hq
      funext d
      have := hd p hp q hq d
      rw [hlen] at this
      linarith [abs_nonpos_iff.1 this]
  intro p hp
  funext d
  have := centre_between hc hm (List.ne_nil_of_mem hp) d (lo := x p d) (hi := x p d) (fun q hq => by
    rw [main q hq p hp]; exact ⟨le_rfl, le_rfl⟩)
  exact le_antisymm this.1 this.2

/-- C41. With opening angle zero the potential is the direct sum over all particles. -/
theorem C41_direct_sum [FloorRing K] (res resHalf : K) (hres : res = 2 * resHalf) (rand : Nat → Nat) (fuel : Nat) (old : List Int)
    (pts : List (Fin 3 → K)) (mass : List K) (num N : Nat) (x : Nat → Fin 3 → K) (m : Nat → K) (hc : Content pts num N x)
    (hm : Masses mass N m) (t : Tree K K)
    (ht : buildTree (gravityRule pts mass) res resHalf rand fuel old pts num = .ok t)
    (periodic : Bool) (L : K) (sqrt : K → K) (soft G scale : K) (target : Fin 3 → K)
    (hbox : periodic = true → 0 < L ∧ InBox L target ∧ ∀ p < N, InBox L (x p)) :
    ∃ s : Nat → K, (∀ p < N, Separation periodic L (x p) target (s p)) ∧
      evaluatePotential periodic L sqrt soft 0 G scale pts mass N t target 0 =
        .ok (((List.range N).map (fun p => softPotential sqrt soft (m p) (s p))).sum * G / scale) := by
  obtain ⟨l, cls, hl, hu, e⟩ := potential_used hres hc hm ht periodic L sqrt soft 0 G scale target 0
  have hlt : ∀ p ∈ l, p < N := fun p hp => List.mem_range.1 (hl.mem_iff.1 hp)
  refine ⟨fun p => treeDist2 periodic L (x p) target, fun p hp => dist_separation (fun h => ?_), ?_⟩
  · obtain ⟨b1, b2, b3⟩ := hbox h
    exact ⟨b1, b3 p hp, b2⟩
  · rw [e, zero_div, zero_add]
    rw [point_clusters (f := fun p => treeDist2 periodic L (x p) target) (fun cl hcl p hp => ?_), hu.parts,
      (hl.map _).sum_eq]
    have hsub : ∀ p ∈ cl.members, p ∈ l := by
      intro p hp
      rw [← hu.parts]
      exact List.mem_flatten.2 ⟨_, List.mem_map.2 ⟨cl, hcl, rfl⟩, hp⟩
    rw [hu.sep cl hcl, point_members (fun p hp => (hm p (hlt p (hsub p hp))).2) (hu.centre cl hcl) (hu.allowed cl hcl) p hp]

/-- C41. The softened potential of one body is Newtonian beyond 2.8 softening lengths, `-mass/softening`
for coincident bodies, and proportional to the mass. -/
theorem C41_kernel (sqrt : K → K) (soft : K) (hs : 0 < soft) (h0 : sqrt 0 = 0) :
    (∀ mass r r2, sqrt r2 = r → 28 / 10 * soft ≤ r → softPotential sqrt soft mass r2 = -(mass / r)) ∧
    (∀ mass, softPotential sqrt soft mass 0 = -(mass / soft)) ∧
    ∀ r2, ∃ k, ∀ mass, softPotential sqrt soft mass r2 = mass * k := by
  refine ⟨fun mass r r2 hr hle => ?_, fun mass => softPotential_zero h0 hs mass, fun r2 => softPotential_linear sqrt soft r2⟩
  unfold softPotential
  simp only [hr]
  rw [if_pos hle]

/-- C41. The binding energy of a particle of the tree is its kinetic energy relative to the reference
(velocity difference plus Hubble flow over the nearest-image separation) plus the potential of all
other particles. -/
theorem C41_binding_energy [FloorRing K] (res resHalf : K) (hres : res = 2 * resHalf) (rand : Nat → Nat) (fuel : Nat)
    (old : List Int) (pts : List (Fin 3 → K)) (mass : List K) (num N : Nat) (x : Nat → Fin 3 → K) (m : Nat → K)
    (hc : Content pts num N x) (hm : Masses mass N m) (t : Tree K K)
    (ht : buildTree (gravityRule pts mass) res resHalf rand fuel old pts num = .ok t)
    (periodic : Bool) (L : K) (sqrt : K → K) (soft angle2 G scale hz : K) (i : Nat) (hi : i < N) (vel refPos refVel : Fin 3 → K)
    (hbox : periodic = true → 0 < L ∧ InBox L refPos ∧ ∀ p < N, InBox L (x p)) (h0 : 0 ≤ angle2) (h3 : 3 * angle2 < 1)
    (hq : sqrt 0 = 0) (hs : 0 < soft) :
    ∃ cls sh, Clustering periodic L angle2 m x (x i) ((List.range N).erase i) cls ∧
      (if periodic then (∃ k, sh = image L k (x i)) ∧ Separation periodic L (x i) refPos (sqDist sh refPos) else sh = x i) ∧
      bindingEnergy periodic L sqrt soft angle2 G scale hz pts mass N t (x i) vel refPos refVel (m i) =
        .ok (((vel 0 - refVel 0 + hz * scale * (sh 0 - refPos 0)) ^ 2 + (vel 1 - refVel 1 + hz * scale * (sh 1 - refPos 1)) ^ 2 +
          (vel 2 - refVel 2 + hz * scale * (sh 2 - refPos 2)) ^ 2) / 2 +
          (cls.map (fun cl => softPotential sqrt soft (totalMass m cl.members) cl.sep2)).sum * G / scale) := by
  obtain ⟨cls, hcl, e⟩ := potential_self hres hc hm ht periodic L sqrt soft angle2 G scale i hi
    (fun h => ⟨(hbox h).1, (hbox h).2.2⟩) h0 h3 hq hs
  have hsh : ∃ sh : Fin 3 → K, (∀ d, treeOffset periodic L (x i) refPos d = sh d - refPos d) ∧
      (if periodic then (∃ k, sh = image L k (x i)) ∧ Separation periodic L (x i) refPos (sqDist sh refPos) else sh = x i) := by
    cases periodic with
    | false => exact ⟨x i, fun d => by simp [treeOffset], by simp⟩
    | true =>
      obtain ⟨b1, b2, b3⟩ := hbox rfl
      choose k hk using fun d : Fin 3 => nearest_image L (x i d - refPos d)
      have ho : ∀ d, treeOffset true L (x i) refPos d = image L k (x i) d - refPos d := by
        intro d
        simp only [treeOffset, if_true, hk d, image]
        ring
      refine ⟨image L k (x i), ho, ?_⟩
      simp only [if_true]
      refine ⟨⟨k, rfl⟩, ?_⟩
      have := dist_separation (periodic := true) (L := L) (y := x i) (c := refPos) (fun _ => ⟨b1, b3 i hi, b2⟩)
      unfold treeDist2 at this
      simp only [ho] at this
      unfold sqDist
      convert this using 1
      ring
  obtain ⟨sh, ho, hs'⟩ := hsh
  refine ⟨cls, sh, hcl, hs', ?_⟩
  unfold bindingEnergy
  rw [e, Outcome.bind_ok]
  simp only [relativeVelocity, ho, clusterPot]
  congr 2
  ring

end Field

/-! ## Non-vacuity -/

/-- Five particles, two of them at the same place. -/
def treePts : List (Fin 3 → ℚ) := [![1, 1, 1], ![9, 1, 2], ![1, 1, 1], ![8, 8, 8], ![17/2, 8, 8]]

def treePos (p : Nat) : Fin 3 → ℚ := match p with
  | 1 => ![9, 1, 2] | 3 => ![8, 8, 8] | 4 => ![17/2, 8, 8] | _ => ![1, 1, 1]

theorem treeContent : Content treePts 0 5 treePos := by
  refine ⟨by simp [treePts], by simp [treePts], rfl, ?_⟩
  intro p hp
  interval_cases p <;> rfl

example : Masses [1, 2, 1, 3, 1] 5 (fun p => match p with | 1 => (2 : ℚ) | 3 => 3 | _ => 1) := by
  intro p hp
  interval_cases p <;> exact ⟨rfl, by norm_num⟩

/-- Number of nodes of a tree, and the masses of its nodes. -/
def massesOf {A : Type} (t : Tree ℚ A) : List (Option A) :=
  t.cells.map (fun c => match c with | .way w => some w.mass | _ => none)

/-- The coincident particles 0 and 2 end up in a chain of nodes below the resolution. -/
example : (do let t ← buildTree geoRule 1 (1/2) (fun n => n + 2) 20 [7] treePts 0; .ok (massesOf t, t.next)) =
    .ok ([some 5, some 2, some 2, some 2, some 2, some 2, some 2], [2, 10, 1, 4, -1]) := by decide +kernel

/-- The gravity tree of the same particles. -/
example : (do let t ← buildTree (gravityRule treePts [1, 2, 1, 3, 1]) 1 (1/2) (fun n => n + 2) 20 [] treePts 0
              .ok (massesOf t, t.next)) =
    .ok ([some 8, some 2, some 2, some 2, some 2, some 4, some 4], [2, 10, 1, 4, -1]) := by decide +kernel

/-- The potential there: with angle zero and everything Newtonian (`sqrt` of the squared distances 1, 9 and
25/4), three bodies on a line seen from the origin. -/
example : (do let t ← buildTree (gravityRule [![1, 0, 0], ![3, 0, 0], ![5/2, 0, 0]] [1, 3, 5]) 1 (1/2) (fun _ => 2) 20 [] [![1, 0, 0], ![3, 0, 0], ![5/2, 0, 0]] 0
              evaluatePotential false (0 : ℚ) (fun r2 => if r2 = 1 then 1 else if r2 = 9 then 3 else if r2 = 25/4 then 5/2 else 0)
                (1/10) 0 2 1 [![1, 0, 0], ![3, 0, 0], ![5/2, 0, 0]] [1, 3, 5] 3 t ![0, 0, 0] 0) = .ok (-8) := by decide +kernel

/-- The hypotheses of C41_geo_ends hold for two coincident particles and a third one. -/
def twins (p : Nat) : Fin 3 → ℚ := if p = 2 then fun _ => 2 else fun _ => 0

example : RootCube twins 3 1 (fun _ => 1) := by
  refine ⟨fun _ => 0, fun _ => 2, fun d => ⟨⟨0, by norm_num, rfl⟩, ⟨2, by norm_num, rfl⟩, fun p _ => ?_⟩, fun d => by norm_num,
    fun d => by norm_num, 0, by norm_num⟩
  unfold twins
  split_ifs <;> norm_num

theorem piece_low (m : Nat) : pieceCentre (0 : ℚ) 1 1 m = 1 / 2 ^ m := by
  induction m with
  | zero => simp [pieceCentre]
  | succ m ih =>
    rw [pieceCentre, ih, if_neg (by simp), pow_succ]
    field_simp; norm_num

theorem piece_high (m : Nat) : pieceCentre (2 : ℚ) 1 1 m = 2 - 1 / 2 ^ m := by
  induction m with
  | zero => norm_num [pieceCentre]
  | succ m ih =>
    rw [pieceCentre, ih, if_pos (by simp), pow_succ]
    field_simp; ring

example : ∀ p < 3, ¬ ∃ i j, ∀ n, min ((fun _ => 3 : Nat → Nat) (i + n)) 7 = octDigit (twins p) 1 (fun _ => 1) (j + n) := by
  rintro p - ⟨i, j, h⟩
  have := h 0
  unfold octDigit twins at this
  split_ifs at this <;> simp [piece_low, piece_high] at this

end HBT.Props
