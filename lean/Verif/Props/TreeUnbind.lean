import Verif.Props.TreeAccuracy
import Verif.Props.UnbindEnergy
/-!
# C77: unbinding with the tree of the program
-/
namespace HBT.Props
open HBT HBT.Model HBT.Spec HBT.UE HBT.OT HBT.Spl
variable {K D : Type} [Field K] [LinearOrder K] [IsStrictOrderedRing K]

/-- The potential at `x` of a body of mass `w.1` at `w.2`, softened over `h`, at the distance `dist`. -/
def splineField (dist : (Fin 3 → K) → (Fin 3 → K) → K) (h G scale : K) (x : Fin 3 → K) (w : K × (Fin 3 → K)) : K :=
  -(w.1 * splineKernel (dist w.2 x / h) / h * G / scale)

/-- The distance, to the nearest image in a periodic box. -/
def boxDistance (sqrt : K → K) (periodic : Bool) (L : K) (x y : Fin 3 → K) : K := sqrt (treeDist2 periodic L x y)

omit [LinearOrder K] [IsStrictOrderedRing K] in
theorem sum_neg {α : Type} (f : α → K) (l : List α) : (l.map (fun a => -f a)).sum = -(l.map f).sum := by
  induction l with
  | nil => simp
  | cons a l ih => rw [List.map_cons, List.sum_cons, ih, List.map_cons, List.sum_cons]; ring

theorem dist2_nonneg (periodic : Bool) (L : K) (x y : Fin 3 → K) : 0 ≤ treeDist2 periodic L x y := by
  unfold treeDist2
  exact add_nonneg (add_nonneg (mul_self_nonneg _) (mul_self_nonneg _)) (mul_self_nonneg _)

/-- It is a separation in the sense of the specification. -/
theorem boxDistance_is [FloorRing K] {sqrt : K → K} (hr : IsRoot sqrt) {periodic : Bool} {L : K} {x y : Fin 3 → K}
    (h : periodic = true → 0 < L ∧ InBox L x ∧ InBox L y) : Separation periodic L x y (boxDistance sqrt periodic L x y * boxDistance sqrt periodic L x y) := by
  have h0 := dist2_nonneg periodic L x y
  unfold boxDistance
  rw [(hr _ h0).2]
  exact dist_separation h

theorem near_error {s phi pot : K} (hphi : 0 ≤ phi) (hs0 : 0 ≤ s) (h : PotentialNear s phi pot) : |pot - -phi| ≤ ((1 + s) * (1 + 2 / 10 ^ 12) - 1) * phi := by
  obtain ⟨n1, n2⟩ := h
  rw [abs_le]
  constructor
  · linarith
  · have : (0 : K) ≤ s * phi := mul_nonneg hs0 hphi
    nlinarith

/-- C77: the tree of the program gives the sum of the softened potentials of the bodies up to the relative error `s` of the opening angle (`3 θ² ≤ s²`, `s < 1`),
and 2 in 10¹² of the constants. -/
theorem C77_tree_near [FloorRing K] (periodic : Bool) (L : K) (hL : periodic = true → 0 < L) (sqrt : K → K) (hr : IsRoot sqrt) (soft : K) (hsoft : 0 < soft)
    (angle2 s : K) (h0 : 0 ≤ angle2) (hs0 : 0 ≤ s) (hs1 : s < 1) (hs : 3 * angle2 ≤ s ^ 2) (G scale : K) (hG : 0 ≤ G) (ha : 0 < scale)
    (res resHalf : K) (hres : res = 2 * resHalf) (rand : Nat → Nat → Nat) (old : Nat → List Int) (fuel : Nat) :
    NearGravity (treeSolver periodic L sqrt soft angle2 G scale res resHalf rand old fuel) (fun x => periodic = true → InBox L x)
      (splineField (boxDistance sqrt periodic L) (28 / 10 * soft) G scale)
      (fun x w => ((1 + s) * (1 + 2 / 10 ^ 12) - 1) * -splineField (boxDistance sqrt periodic L) (28 / 10 * soft) G scale x w) := by
  have hh : (0 : K) < 28 / 10 * soft := by positivity
  have hd0 := dist2_nonneg periodic L
  have hdelta : (0 : K) ≤ (1 + s) * (1 + 2 / 10 ^ 12) - 1 := by nlinarith
  have hfield : ∀ x (w : K × (Fin 3 → K)), 0 < w.1 → 0 ≤ -splineField (boxDistance sqrt periodic L) (28 / 10 * soft) G scale x w := by
    intro x w hw
    unfold splineField boxDistance
    rw [neg_neg]
    exact div_nonneg (mul_nonneg (div_nonneg (mul_nonneg hw.le (kernel_pos (div_nonneg (hr _ (hd0 _ _)).1 hh.le)).le) hh.le) hG) ha.le
  -- sums over lists of bodies and over numbers
  have build : ∀ k (bs : List (Weighted K)) pot, (∀ w ∈ bs, 0 < w.1 ∧ (periodic = true → InBox L w.2)) →
      treeSolver periodic L sqrt soft angle2 G scale res resHalf rand old fuel k bs = .ok pot →
      ∃ (m : Nat → K) (x : Nat → Fin 3 → K) (t : Tree K K), (∀ i (hi : i < bs.length), m i = (bs[i]'hi).1 ∧ x i = (bs[i]'hi).2) ∧
        Content (bs.map Prod.snd) 0 bs.length x ∧ Masses (bs.map Prod.fst) bs.length m ∧
        buildTree (gravityRule (bs.map Prod.snd) (bs.map Prod.fst)) res resHalf (rand k) fuel (old k) (bs.map Prod.snd) 0 = .ok t ∧
        pot = evaluatePotential periodic L sqrt soft angle2 G scale (bs.map Prod.snd) (bs.map Prod.fst) bs.length t := by
    intro k bs pot hbs hsolve
    unfold treeSolver at hsolve
    obtain ⟨t, ht, hsolve⟩ := bind_ok_inv hsolve
    injection hsolve with hsolve
    have hne : bs ≠ [] := by
      rintro rfl
      cases ht
    refine ⟨fun i => ((bs[i]?).map Prod.fst).getD 0, fun i => ((bs[i]?).map Prod.snd).getD (fun _ => 0), t, ?_, ?_, ?_, ht, ?_⟩
    · intro i hi
      simp [List.getElem?_eq_getElem hi]
    · refine ⟨by simpa using hne, by simp, by simp, fun p hp => ?_⟩
      simp [List.getElem?_eq_getElem hp]
    · intro p hp
      refine ⟨by simp [List.getElem?_eq_getElem hp], ?_⟩
      simp only [List.getElem?_eq_getElem hp, Option.map_some, Option.getD_some]
      exact (hbs _ (List.getElem_mem hp)).1
    · rw [← hsolve, List.length_map]
  -- the direct sum over all numbers
  have total : ∀ (bs : List (Weighted K)) (m : Nat → K) (x : Nat → Fin 3 → K) (target : Fin 3 → K),
      (∀ i (hi : i < bs.length), m i = (bs[i]'hi).1 ∧ x i = (bs[i]'hi).2) →
      -(bs.map (splineField (boxDistance sqrt periodic L) (28 / 10 * soft) G scale target)).sum =
        directSum (28 / 10 * soft) m (fun p => sqrt (treeDist2 periodic L (x p) target)) (List.range bs.length) * G / scale := by
    intro bs m x target hmx
    have e1 : bs.map (splineField (boxDistance sqrt periodic L) (28 / 10 * soft) G scale target) =
        (List.range bs.length).map (fun p => -(m p * splineKernel (sqrt (treeDist2 periodic L (x p) target) / (28 / 10 * soft)) / (28 / 10 * soft)) * (G / scale)) := by
      apply List.ext_getElem (by simp)
      intro i h1 h2
      have hi : i < bs.length := by simpa using h1
      obtain ⟨a1, a2⟩ := hmx i hi
      simp only [List.getElem_map, List.getElem_range, splineField, boxDistance, a1, a2]
      ring
    rw [e1, List.sum_map_mul_right, directSum]
    have e2 : ∀ f : Nat → K, ((List.range bs.length).map (fun p => -(f p))).sum = -((List.range bs.length).map f).sum := fun f => sum_neg _ _
    rw [e2]
    ring
  refine ⟨fun x w _ _ hw => mul_nonneg hdelta (hfield x w hw), ?_, ?_⟩
  · intro k bs others pot x m p hbs hperm hsolve hpot
    obtain ⟨mm, xx, t, hmx, hc, hm, ht, rfl⟩ := build k bs pot hbs hsolve
    obtain ⟨i, hi, hiv⟩ := List.getElem_of_mem (hperm.mem_iff.1 (List.mem_cons_self))
    obtain ⟨a1, a2⟩ := hmx i hi
    rw [hiv] at a1 a2
    simp only at a1 a2
    have hin : periodic = true → 0 < L ∧ ∀ p < bs.length, InBox L (xx p) := fun h => ⟨hL h, fun p hp => by
      rw [(hmx p hp).2]
      exact (hbs _ (List.getElem_mem hp)).2 h⟩
    obtain ⟨pot', e, hn⟩ := C77_at_particle res resHalf hres (rand k) fuel (old k) _ _ 0 bs.length xx mm hc hm t ht periodic L sqrt hr soft hsoft angle2 s h0 hs0 hs1 hs
      G scale hG ha i hi hin (fun p => treeDist2 periodic L (xx p) (xx i)) (fun p hp _ => dist_separation (fun h => ⟨hL h, (hin h).2 p hp, (hin h).2 i hi⟩))
    rw [a1, a2] at e
    rw [hpot] at e
    injection e with e
    subst e
    have hsum : directSum (28 / 10 * soft) mm (fun p => sqrt (treeDist2 periodic L (xx p) (xx i))) ((List.range bs.length).erase i) * G / scale =
        -(others.map (splineField (boxDistance sqrt periodic L) (28 / 10 * soft) G scale x)).sum := by
      have t1 := total bs mm xx x hmx
      rw [← (hperm.map _).sum_eq, List.map_cons, List.sum_cons] at t1
      have t2 : directSum (28 / 10 * soft) mm (fun p => sqrt (treeDist2 periodic L (xx p) x)) (List.range bs.length) =
          mm i * splineKernel (sqrt (treeDist2 periodic L (xx i) x) / (28 / 10 * soft)) / (28 / 10 * soft) +
            directSum (28 / 10 * soft) mm (fun p => sqrt (treeDist2 periodic L (xx p) x)) ((List.range bs.length).erase i) := by
        have := ((List.perm_cons_erase (List.mem_range.2 hi)).map (fun p => mm p * splineKernel (sqrt (treeDist2 periodic L (xx p) x) / (28 / 10 * soft)) / (28 / 10 * soft))).sum_eq
        rw [List.map_cons, List.sum_cons] at this
        exact this
      rw [t2] at t1
      unfold splineField boxDistance at t1 ⊢
      rw [a2]
      rw [a1, a2] at t1
      simp only at t1
      have t3 : ∀ a b : K, (a + b) * G / scale = a * G / scale + b * G / scale := fun a b => by ring
      rw [t3] at t1
      linarith
    rw [hsum] at hn
    have hphi : 0 ≤ -(others.map (splineField (boxDistance sqrt periodic L) (28 / 10 * soft) G scale x)).sum := by
      rw [← sum_neg]
      refine List.sum_nonneg (fun a ha' => ?_)
      obtain ⟨w, hw, rfl⟩ := List.mem_map.1 ha'
      exact hfield x w (hbs w (hperm.mem_iff.1 (List.mem_cons_of_mem _ hw))).1
    have := near_error hphi hs0 hn
    rw [neg_neg] at this
    rw [List.sum_map_mul_left, sum_neg]
    exact this
  · intro k bs pot x p hbs hx hsolve hpot
    obtain ⟨mm, xx, t, hmx, hc, hm, ht, rfl⟩ := build k bs pot hbs hsolve
    have hin : periodic = true → 0 < L ∧ InBox L x ∧ ∀ p < bs.length, InBox L (xx p) := fun h => ⟨hL h, hx h, fun p hp => by
      rw [(hmx p hp).2]
      exact (hbs _ (List.getElem_mem hp)).2 h⟩
    obtain ⟨pot', e, hn⟩ := C77_potential res resHalf hres (rand k) fuel (old k) _ _ 0 bs.length xx mm hc hm t ht periodic L sqrt hr soft hsoft angle2 s hs0 hs1 hs
      G scale hG ha x hin (fun p => treeDist2 periodic L (xx p) x) (fun p hp => dist_separation (fun h => ⟨hL h, (hin h).2.2 p hp, (hin h).2.1⟩))
    rw [hpot] at e
    injection e with e
    subst e
    rw [← total bs mm xx x hmx] at hn
    have hphi : 0 ≤ -(bs.map (splineField (boxDistance sqrt periodic L) (28 / 10 * soft) G scale x)).sum := by
      rw [← sum_neg]
      refine List.sum_nonneg (fun a ha' => ?_)
      obtain ⟨w, hw, rfl⟩ := List.mem_map.1 ha'
      exact hfield x w (hbs w hw).1
    have := near_error hphi hs0 hn
    rw [neg_neg] at this
    rw [List.sum_map_mul_left, sum_neg]
    exact this

/-- The error of the energy of `b` that is allowed to unbinding: at least twice the relative error `delta` times the potential energy of `b` in the gravity of all
other bodies. -/
def SlackOf (field : (Fin 3 → K) → K × (Fin 3 → K) → K) (delta : K) (bs : List (Body K)) (slack : Body K → K) : Prop :=
  ∀ b rest, (b :: rest).Perm bs → 2 * delta * -(rest.map (fun o => field b.pos (o.mass, o.pos))).sum ≤ slack b

theorem slack_for {field : (Fin 3 → K) → K × (Fin 3 → K) → K} {delta : K} {bs : List (Body K)} {slack : Body K → K} (h : SlackOf field delta bs slack)
    (hnon : ∀ b ∈ bs, ∀ o ∈ bs, 0 ≤ delta * -field b.pos (o.mass, o.pos)) : SlackFor (fun x w => delta * -field x w) slack bs := by
  intro b others hsub
  obtain ⟨l', hp, hsl⟩ := hsub
  obtain ⟨t, ht⟩ := hsl.exists_perm_append
  have hperm : (b :: (others ++ t)).Perm bs := by
    rw [← List.cons_append]
    exact (hp.symm.append_right t).trans ht.symm
  refine le_trans ?_ (h b (others ++ t) hperm)
  have hb : b ∈ bs := hperm.mem_iff.1 List.mem_cons_self
  have e : ∀ l : List (Body K), sumOf (fun x w => delta * -field x w) b.pos l = delta * -(l.map (fun o => field b.pos (o.mass, o.pos))).sum := by
    intro l
    unfold sumOf
    rw [List.sum_map_mul_left, sum_neg]
  have ht0 : 0 ≤ sumOf (fun x w => delta * -field x w) b.pos t := by
    refine List.sum_nonneg (fun a ha => ?_)
    obtain ⟨o, ho, rfl⟩ := List.mem_map.1 ha
    exact hnon b hb o (hperm.mem_iff.1 (List.mem_cons_of_mem _ (List.mem_append_right _ ho)))
  have e2 := e (others ++ t)
  have e3 : sumOf (fun x w => delta * -field x w) b.pos (others ++ t) = sumOf (fun x w => delta * -field x w) b.pos others + sumOf (fun x w => delta * -field x w) b.pos t := by
    unfold sumOf
    rw [List.map_append, List.sum_append]
  rw [mul_assoc, ← e2, e3]
  linarith

/-- C77: unbinding in free space with the tree of the program, at any opening angle below `1/√3`. The bodies are unbound as specified for C76, up to errors of
the energies of twice the relative error of the tree times the potential energy: in every iteration bodies of energies above that are removed,
and those below minus that stay. -/
theorem C77_unbinding [FloorRing K] (cfg : UnbindConfig) (ph : Physics K) (hper : ph.periodic = false) (hfl : ph.fl = id)
    (sqrt : K → K) (hr : IsRoot sqrt) (soft : K) (hsoft : 0 < soft)
    (angle2 s : K) (h0 : 0 ≤ angle2) (hs0 : 0 ≤ s) (hs1 : s < 1) (hs : 3 * angle2 ≤ s ^ 2) (G : K) (hG : 0 ≤ G) (ha : 0 < ph.scale)
    (res resHalf : K) (hres : res = 2 * resHalf) (rand : Nat → Nat → Nat) (old : Nat → List Int) (treeFuel : Nat)
    (hsolve : ph.solve = treeSolver ph.periodic ph.boxsize sqrt soft angle2 G ph.scale res resHalf rand old treeFuel)
    (sortE : List (PE K) → List (PE K)) (hsort : ∀ l, (sortE l).Perm l) (shuffle : List (Particle D) → List (Particle D)) (junk : Nat → K) (way : Nat)
    (body : D → Body K) (fuel : Nat) (snap : Int) (hsnap : snap ≠ nullSnap) (ref : Frame K) (t t' : Sub K D) (f : Option (Frame K)) (tr : List (Pass K))
    (h : unbindBodies cfg ph sortE shuffle junk way body fuel snap ref t = .ok (t', f, tr)) (hn : 2 ≤ t.particles.length)
    (hm : ∀ b ∈ bodiesOf body t.particles, 0 < b.mass) (hmin : 0 < cfg.minNum) (hsamp : cfg.maxSample = 0 ∨ t.particles.length ≤ cfg.maxSample)
    (hbr : tr.dropLast.Pairwise (fun p q => Pass.Brisk q → Pass.Brisk p)) (slack : Body K → K)
    (hslack : SlackOf (splineField (fun x y => sqrt (sqDist x y)) (28 / 10 * soft) G ph.scale) ((1 + s) * (1 + 2 / 10 ^ 12) - 1) (bodiesOf body t.particles) slack) :
    (UnbindsWithin slack (specificEnergy (fun x y d => x d - y d) (splineField (fun x y => sqrt (sqDist x y)) (28 / 10 * soft) G ph.scale) (ph.hz * ph.scale) ph.withThermal)
        CentreOf cfg.minNum (Enough cfg) ref (bodiesOf body t.particles) none ∧ f = none ∧ t'.nbound = 1 ∧ t'.snapDeath ≠ nullSnap) ∨
    ∃ g, UnbindsWithin slack (specificEnergy (fun x y d => x d - y d) (splineField (fun x y => sqrt (sqDist x y)) (28 / 10 * soft) G ph.scale) (ph.hz * ph.scale)
        ph.withThermal) CentreOf cfg.minNum (Enough cfg) ref (bodiesOf body t.particles) (some (bodiesOf body (t'.particles.take t'.nbound), g)) ∧
      f = some g ∧ t'.snapDeath = nullSnap := by
  have hd : (fun x y : Fin 3 → K => sqrt (sqDist x y)) = boxDistance sqrt ph.periodic ph.boxsize := by
    funext x y
    unfold boxDistance treeDist2 treeOffset sqDist
    rw [hper]
    simp only [Bool.false_eq_true, if_false]
    congr 1
    ring
  rw [hd] at hslack ⊢
  have hnear := C77_tree_near ph.periodic ph.boxsize (fun h => by rw [hper] at h; cases h) sqrt hr soft hsoft angle2 s h0 hs0 hs1 hs G ph.scale hG ha res resHalf hres rand old
    treeFuel
  rw [← hsolve] at hnear
  have hin : ∀ x : Fin 3 → K, ph.periodic = true → InBox ph.boxsize x := fun x h => by rw [hper] at h; cases h
  exact unbinds_free cfg ph hper hfl _ _ _ hnear slack sortE hsort shuffle junk way body fuel snap hsnap ref t t' f tr h hn (fun b hb => ⟨hm b hb, hin b.pos⟩)
    (slack_for hslack (fun b hb o ho => hnear.nonneg _ _ (hin _) (hin _) (hm o ho))) hmin hsamp hbr

/-- C77: the same in a periodic box; `turns`, `free` and `c` as in `C76_unbinding_periodic`. The bodies are in the box, and distances are those to the
nearest image (`boxDistance_is`). -/
theorem C77_unbinding_periodic [FloorRing K] (cfg : UnbindConfig) (ph : Physics K) (hper : ph.periodic = true) (hB : 0 < ph.boxsize) (hfl : ph.fl = id)
    (sqrt : K → K) (hr : IsRoot sqrt) (soft : K) (hsoft : 0 < soft)
    (angle2 s : K) (h0 : 0 ≤ angle2) (hs0 : 0 ≤ s) (hs1 : s < 1) (hs : 3 * angle2 ≤ s ^ 2) (G : K) (hG : 0 ≤ G) (ha : 0 < ph.scale)
    (res resHalf : K) (hres : res = 2 * resHalf) (rand : Nat → Nat → Nat) (old : Nat → List Int) (treeFuel : Nat)
    (hsolve : ph.solve = treeSolver ph.periodic ph.boxsize sqrt soft angle2 G ph.scale res resHalf rand old treeFuel)
    (sortE : List (PE K) → List (PE K)) (hsort : ∀ l, (sortE l).Perm l) (shuffle : List (Particle D) → List (Particle D)) (junk : Nat → K) (way : Nat)
    (body : D → Body K) (fuel : Nat) (snap : Int) (hsnap : snap ≠ nullSnap) (ref : Frame K) (t t' : Sub K D) (f : Option (Frame K)) (tr : List (Pass K))
    (turns : (Fin 3 → K) → Fin 3 → ℤ) (free : (Fin 3 → K) → Fin 3 → K) (hfree : ∀ x j, x j = free x j + turns x j * ph.boxsize) (c : Fin 3 → K)
    (hclose : ∀ x ∈ ref.pos :: (bodiesOf body t.particles).map Body.pos, ∀ j, |free x j - c j| < ph.boxsize / 4)
    (hbox : ∀ x ∈ ref.pos :: (bodiesOf body t.particles).map Body.pos, ∀ y ∈ ref.pos :: (bodiesOf body t.particles).map Body.pos, ∀ j,
      |turns x j - turns y j| ≤ 1)
    (h : unbindBodies cfg ph sortE shuffle junk way body fuel snap ref t = .ok (t', f, tr)) (hn : 2 ≤ t.particles.length)
    (hm : ∀ b ∈ bodiesOf body t.particles, 0 < b.mass ∧ InBox ph.boxsize b.pos) (hmin : 0 < cfg.minNum)
    (hsamp : cfg.maxSample = 0 ∨ t.particles.length ≤ cfg.maxSample)
    (hbr : tr.dropLast.Pairwise (fun p q => Pass.Brisk q → Pass.Brisk p)) (slack : Body K → K)
    (hslack : SlackOf (splineField (boxDistance sqrt true ph.boxsize) (28 / 10 * soft) G ph.scale) ((1 + s) * (1 + 2 / 10 ^ 12) - 1) (bodiesOf body t.particles) slack) :
    (UnbindsWithin slack (specificEnergy (fun x y d => nearest ph.boxsize (x d - y d)) (splineField (boxDistance sqrt true ph.boxsize) (28 / 10 * soft) G ph.scale) (ph.hz * ph.scale) ph.withThermal)
        (CentreInBox ph.boxsize free) cfg.minNum (Enough cfg) ref (bodiesOf body t.particles) none ∧ f = none ∧ t'.nbound = 1 ∧ t'.snapDeath ≠ nullSnap) ∨
    ∃ g, UnbindsWithin slack (specificEnergy (fun x y d => nearest ph.boxsize (x d - y d)) (splineField (boxDistance sqrt true ph.boxsize) (28 / 10 * soft) G ph.scale) (ph.hz * ph.scale)
        ph.withThermal) (CentreInBox ph.boxsize free) cfg.minNum (Enough cfg) ref (bodiesOf body t.particles) (some (bodiesOf body (t'.particles.take t'.nbound), g)) ∧
      f = some g ∧ t'.snapDeath = nullSnap := by
  rw [← hper] at hslack
  have hnear := C77_tree_near ph.periodic ph.boxsize (fun _ => hB) sqrt hr soft hsoft angle2 s h0 hs0 hs1 hs G ph.scale hG ha res resHalf hres rand old treeFuel
  rw [← hsolve] at hnear
  rw [← hper]
  exact unbinds_box cfg ph hper hB hfl _ _ _ hnear slack sortE hsort shuffle junk way body fuel snap hsnap ref t t' f tr turns free hfree c hclose hbox h hn
    (fun b hb => ⟨(hm b hb).1, fun _ => (hm b hb).2⟩)
    (slack_for hslack (fun b hb o ho => hnear.nonneg _ _ (fun _ => (hm b hb).2) (fun _ => (hm o ho).2) (hm o ho).1)) hmin hsamp hbr

/-! ## Non-vacuity -/

/-- Two bodies at rest. -/
noncomputable def pairBody (p : Nat) : Body ℝ := ⟨1, threePos (2 * p), fun _ => 0, 0⟩

noncomputable def pairSub : Sub ℝ (Body ℝ) := { trackId := 0, mbound := 0, lastMaxMass := 0, particles := [⟨0, pairBody 0⟩, ⟨1, pairBody 1⟩] }

def pairConfig : UnbindConfig where
  minNum := 2
  maxSample := 0
  refine := false
  prec := 199 / 200
  relax := 3

/-- The program with its tree, over the reals, with the default opening angle. -/
noncomputable def pairPhysics (periodic : Bool) (treeFuel : Nat) : Physics ℝ where
  periodic := periodic
  boxsize := 100
  hz := 0
  scale := 1
  withThermal := false
  solve := treeSolver periodic 100 Real.sqrt (1 / 10) ((45 / 100) ^ 2) 43 1 1 (1 / 2) (fun _ _ => 3) (fun _ => []) treeFuel

/-- Twice the relative error times the potential energy in the gravity of the other body. -/
noncomputable def pairSlack (b : Body ℝ) : ℝ := 2 * ((1 + 78 / 100) * (1 + 2 / 10 ^ 12) - 1) * (-([pairBody 0, pairBody 1].map (fun o => splineField (fun x y => Real.sqrt (sqDist x y)) (28 / 10 * (1 / 10)) 43 1 b.pos (o.mass, o.pos))).sum +
    splineField (fun x y => Real.sqrt (sqDist x y)) (28 / 10 * (1 / 10)) 43 1 b.pos (b.mass, b.pos))

theorem pair_bodies : bodiesOf id pairSub.particles = [pairBody 0, pairBody 1] := rfl

theorem pair_inBox (p : Nat) : InBox 100 (threePos p) := by
  intro d
  unfold threePos
  split_ifs <;> norm_num

/-- Their unbinding ends after one iteration, with both bound. -/
theorem pair_run (periodic : Bool) : ∃ treeFuel s f tr, unbindBodies pairConfig (pairPhysics periodic treeFuel) id id (fun _ => 0) 0 id 1 5 ⟨fun _ => 0, fun _ => 0⟩ pairSub =
    .ok (s, some f, tr) ∧ s.nbound = 2 ∧ tr.length = 1 := by
  have hc : Content [threePos 0, threePos 2] 0 2 (fun p => threePos (2 * p)) := by
    refine ⟨by simp, by simp, rfl, ?_⟩
    intro p hp
    interval_cases p <;> rfl
  have hm : Masses [1, 1] 2 (fun _ => (1 : ℝ)) := by
    intro p hp
    interval_cases p <;> norm_num
  have hroot : RootCube (fun p => threePos (2 * p)) 2 1 (fun _ => 1) := by
    refine ⟨fun _ => 0, fun _ => 2, fun d => ⟨⟨0, by norm_num, rfl⟩, ⟨1, by norm_num, rfl⟩, fun p _ => ?_⟩, fun d => by norm_num,
      fun d => by norm_num, 0, by norm_num⟩
    simp only [threePos]
    split_ifs <;> norm_num
  obtain ⟨treeFuel, t, ht⟩ := C41_gravity_ends 1 (1 / 2) (by norm_num) (by norm_num) (fun _ => 3) [] _ _ 0 2 _ _ hc hm 1 (fun _ => 1) hroot (by
    rintro p - ⟨i, j, h⟩
    have := h 0
    unfold octDigit threePos at this
    split_ifs at this <;> simp [real_low, real_high] at this)
  have pots : ∀ i < 2, ∃ pot, evaluatePotential periodic 100 Real.sqrt (1 / 10) ((45 / 100) ^ 2) 43 1 [threePos 0, threePos 2] [1, 1] 2 t (threePos (2 * i)) 1 = .ok pot ∧ pot < 0 := by
    intro i hi
    obtain ⟨pot, e, n1, _⟩ := C77_at_particle 1 (1 / 2) (by norm_num) (fun _ => 3) treeFuel [] _ _ 0 2 _ _ hc hm t ht periodic 100 Real.sqrt real_root (1 / 10) (by norm_num)
      ((45 / 100) ^ 2) (78 / 100) (by norm_num) (by norm_num) (by norm_num) (by norm_num) 43 1 (by norm_num) (by norm_num) i hi (fun _ => ⟨by norm_num, fun p _ => pair_inBox _⟩)
      (fun p => treeDist2 periodic 100 (threePos (2 * p)) (threePos (2 * i))) (fun p _ _ => dist_separation (fun _ => ⟨by norm_num, pair_inBox _, pair_inBox _⟩))
    refine ⟨pot, e, ?_⟩
    have hk : ∀ p, 0 < splineKernel (Real.sqrt (treeDist2 periodic 100 (threePos (2 * p)) (threePos (2 * i))) / (28 / 10 * (1 / 10))) := fun p => kernel_pos (by positivity)
    have hphi : 0 < directSum (28 / 10 * (1 / 10)) (fun _ => (1 : ℝ)) (fun p => Real.sqrt (treeDist2 periodic 100 (threePos (2 * p)) (threePos (2 * i)))) ((List.range 2).erase i) := by
      unfold directSum
      have h0 := hk 0
      have h1 := hk 1
      interval_cases i
      · have : (List.range 2).erase 0 = [1] := by decide
        rw [this]
        simp only [List.map_cons, List.map_nil, List.sum_cons, List.sum_nil]
        positivity
      · have : (List.range 2).erase 1 = [0] := by decide
        rw [this]
        simp only [List.map_cons, List.map_nil, List.sum_cons, List.sum_nil]
        positivity
    have : 0 < (1 - 78 / 100 : ℝ) * (1 - 2 / 10 ^ 12) * (directSum (28 / 10 * (1 / 10)) (fun _ => (1 : ℝ))
        (fun p => Real.sqrt (treeDist2 periodic 100 (threePos (2 * p)) (threePos (2 * i)))) ((List.range 2).erase i) * 43 / 1) := by
      refine mul_pos (by norm_num) (by positivity)
    linarith
  obtain ⟨p0, e0, l0⟩ := pots 0 (by norm_num)
  obtain ⟨p1, e1, l1⟩ := pots 1 (by norm_num)
  have hs : (pairPhysics periodic treeFuel).solve 0 [(1, threePos 0), (1, threePos 2)] =
      .ok (evaluatePotential periodic 100 Real.sqrt (1 / 10) ((45 / 100) ^ 2) 43 1 [threePos 0, threePos 2] [1, 1] 2 t) := by
    unfold pairPhysics treeSolver
    simp only [List.map_cons, List.map_nil]
    rw [ht]
    rfl
  have hv : ∀ p, (pairPhysics periodic treeFuel).velocity (threePos p) (fun _ => 0) ⟨fun _ => 0, fun _ => 0⟩ = fun _ => 0 := by
    intro p
    funext d
    simp [Physics.velocity, relativeVelocity, pairPhysics]
  have hfull : fullEnergies 0 (pairPhysics periodic treeFuel) [pairBody 0, pairBody 1] 0 2 ⟨fun _ => 0, fun _ => 0⟩ [⟨0, 0⟩, ⟨1, 0⟩] = .ok [⟨0, p0⟩, ⟨1, p1⟩] := by
    have g0 : Outcome.get [pairBody 0, pairBody 1] 0 = .ok (pairBody 0) := rfl
    have g1 : Outcome.get [pairBody 0, pairBody 1] 1 = .ok (pairBody 1) := rfl
    have hfl : (pairPhysics periodic treeFuel).fl = id := rfl
    have hth : (pairPhysics periodic treeFuel).withThermal = false := rfl
    unfold fullEnergies
    simp only [lt_self_iff_false, false_and, if_false, List.take, List.map_cons, List.map_nil, pickAll, g0, g1, Outcome.bind_ok, mul_one]
    have em : ∀ p, (pairBody p).mass = 1 := fun _ => rfl
    have e0' : (pairBody 0).pos = threePos 0 := rfl
    have e1' : (pairBody 1).pos = threePos 2 := rfl
    rw [em, em, e0', e1', hs]
    simp only [Outcome.bind_ok, updateFirst, g0, g1, energyIn, hfl, hth, id, if_true, Nat.zero_lt_succ, zero_add, em, e0', e1']
    have f0 : evaluatePotential periodic 100 Real.sqrt (1 / 10) ((45 / 100) ^ 2) 43 1 [threePos 0, threePos 2] [1, 1] 2 t (threePos 0) 1 = .ok p0 := e0
    have f1 : evaluatePotential periodic 100 Real.sqrt (1 / 10) ((45 / 100) ^ 2) 43 1 [threePos 0, threePos 2] [1, 1] 2 t (threePos 2) 1 = .ok p1 := e1
    have v0 : (pairBody 0).vel = fun _ => 0 := rfl
    have v1 : (pairBody 1).vel = fun _ => 0 := rfl
    simp only [Nat.one_lt_ofNat, if_true, f0, f1, v0, v1, hv, vecDot, Outcome.bind_ok, mul_zero, add_zero, zero_div, zero_add, Bool.false_eq_true, if_false]
  have hpart : partitionEnergy [(⟨0, p0⟩ : PE ℝ), ⟨1, p1⟩] 2 = .ok ([⟨1, p1⟩, ⟨0, p0⟩], 2) := by
    simp [partitionEnergy, partitionLoop, Outcome.get, Outcome.set, l0, l1]
  have hb : (pairSub.particles.map (fun p => id p.data)) = [pairBody 0, pairBody 1] := rfl
  have hr2 : (List.range 2).map (fun i => (⟨i, 0⟩ : PE ℝ)) = [⟨0, 0⟩, ⟨1, 0⟩] := rfl
  have hpass : unbindPasses pairConfig (pairPhysics periodic treeFuel) id [pairBody 0, pairBody 1] 1 0 none ⟨fun _ => 0, fun _ => 0⟩ [⟨0, 0⟩, ⟨1, 0⟩] 2 2 =
      .ok ([⟨⟨fun _ => 0, fun _ => 0⟩, [⟨0, p0⟩, ⟨1, p1⟩], 2⟩], some ([⟨1, p1⟩, ⟨0, p0⟩], 2, frameOf (pairPhysics periodic treeFuel) ⟨fun _ => 0, fun _ => 0⟩ [pairBody 1, pairBody 0])) := by
    unfold unbindPasses passEnergies
    have : pairConfig.maxSample = 0 := rfl
    simp only [this, hfull, Outcome.bind_ok, hpart]
    have hprec : pairConfig.fl (pairConfig.fl ((2 : ℕ) : ℚ) * pairConfig.prec) ≤ pairConfig.fl ((2 : ℕ) : ℚ) := by
      show ((2 : ℕ) : ℚ) * (199 / 200) ≤ ((2 : ℕ) : ℚ)
      norm_num
    have hmin : ¬ (2 < pairConfig.minNum) := by decide
    rw [if_neg hmin]
    simp only [hprec, if_true]
    simp [pickAll, Outcome.get]
  have hl : pairSub.particles.length = 2 := rfl
  refine ⟨treeFuel, ?_⟩
  unfold unbindBodies
  have hmin : ¬ (pairSub.particles.length < pairConfig.minNum) := by decide
  simp only [if_neg hmin]
  have hsamp : ¬ (0 < pairConfig.maxSample ∧ pairConfig.maxSample < 2) := by decide
  simp only [hl, if_neg hsamp, hb, hr2, hpass]
  have hpp : pairSub.particles = [⟨0, pairBody 0⟩, ⟨1, pairBody 1⟩] := rfl
  simp only [hpp, Outcome.bind_ok, List.map_cons, List.map_nil]
  have hpick : pickAll [(⟨0, pairBody 0⟩ : Particle (Body ℝ)), ⟨1, pairBody 1⟩] [1, 0] = .ok [⟨1, pairBody 1⟩, ⟨0, pairBody 0⟩] := rfl
  simp only [hpick, Outcome.bind_ok]
  refine ⟨_, _, _, rfl, ?_, ?_⟩
  · rfl
  · rfl

/-- `C77_unbinding` applies to it. -/
example : ∃ treeFuel s f tr, unbindBodies pairConfig (pairPhysics false treeFuel) id id (fun _ => 0) 0 id 1 5 ⟨fun _ => 0, fun _ => 0⟩ pairSub = .ok (s, some f, tr) ∧ s.nbound = 2 ∧
    ∃ g, UnbindsWithin pairSlack (specificEnergy (fun x y d => x d - y d) (splineField (fun x y => Real.sqrt (sqDist x y)) (28 / 10 * (1 / 10)) 43 1) 0 false) CentreOf 2
      (Enough pairConfig) ⟨fun _ => 0, fun _ => 0⟩ [pairBody 0, pairBody 1] (some (bodiesOf id (s.particles.take 2), g)) := by
  obtain ⟨treeFuel, s, f, tr, h, hn, htr⟩ := pair_run false
  have key := C77_unbinding pairConfig (pairPhysics false treeFuel) rfl rfl Real.sqrt real_root (1 / 10) (by norm_num) ((45 / 100) ^ 2) (78 / 100) (by norm_num) (by norm_num) (by norm_num)
    (by norm_num) 43 (by norm_num) (by norm_num [pairPhysics]) 1 (1 / 2) (by norm_num) (fun _ _ => 3) (fun _ => []) treeFuel rfl id (fun _ => List.Perm.refl _) id (fun _ => 0) 0 id 1 5
    (by decide) ⟨fun _ => 0, fun _ => 0⟩ pairSub s (some f) tr h (by decide) (by rw [pair_bodies]; intro b hb; simp only [List.mem_cons, List.not_mem_nil, or_false] at hb; rcases hb with rfl | rfl <;> norm_num [pairBody])
    (by decide) (Or.inl rfl) (by
      match tr, htr with
      | [_], _ => simp)
    pairSlack (by
      intro b rest hp
      rw [pair_bodies] at hp
      have := (hp.map (fun o => splineField (fun x y => Real.sqrt (sqDist x y)) (28 / 10 * (1 / 10)) 43 1 b.pos (o.mass, o.pos))).sum_eq
      rw [List.map_cons, List.sum_cons] at this
      unfold pairSlack
      rw [← this]
      refine le_of_eq ?_
      simp only [pairPhysics]
      ring)
  rcases key with ⟨_, hf, _⟩ | ⟨g, hu, hf, _⟩
  · cases hf
  · refine ⟨treeFuel, s, f, tr, h, hn, g, ?_⟩
    have e : (pairPhysics false treeFuel).hz * (pairPhysics false treeFuel).scale = 0 := by simp [pairPhysics]
    rw [hn, pair_bodies, e] at hu
    exact hu

/-- `C77_unbinding_periodic` applies as well. -/
example : ∃ treeFuel s f tr, unbindBodies pairConfig (pairPhysics true treeFuel) id id (fun _ => 0) 0 id 1 5 ⟨fun _ => 0, fun _ => 0⟩ pairSub = .ok (s, some f, tr) ∧ s.nbound = 2 ∧
    ∃ slack g, UnbindsWithin slack (specificEnergy (fun x y d => nearest 100 (x d - y d)) (splineField (boxDistance Real.sqrt true 100) (28 / 10 * (1 / 10)) 43 1) 0 false)
      (CentreInBox 100 id) 2 (Enough pairConfig) ⟨fun _ => 0, fun _ => 0⟩ [pairBody 0, pairBody 1] (some (bodiesOf id (s.particles.take 2), g)) := by
  obtain ⟨treeFuel, s, f, tr, h, hn, htr⟩ := pair_run true
  have hnear : ∀ x ∈ (fun _ => 0) :: (bodiesOf id pairSub.particles).map Body.pos, ∀ j : Fin 3, |id x j - (fun _ => 0) j| < (100 : ℝ) / 4 := by
    intro x hx j
    rw [pair_bodies] at hx
    simp only [List.map_cons, List.map_nil, List.mem_cons, List.not_mem_nil, or_false, pairBody, threePos] at hx
    rcases hx with rfl | rfl | rfl <;> norm_num
  have key := C77_unbinding_periodic pairConfig (pairPhysics true treeFuel) rfl (by norm_num [pairPhysics]) rfl Real.sqrt real_root (1 / 10) (by norm_num) ((45 / 100) ^ 2) (78 / 100)
    (by norm_num) (by norm_num) (by norm_num) (by norm_num) 43 (by norm_num) (by norm_num [pairPhysics]) 1 (1 / 2) (by norm_num) (fun _ _ => 3) (fun _ => []) treeFuel rfl id
    (fun _ => List.Perm.refl _) id (fun _ => 0) 0 id 1 5 (by decide) ⟨fun _ => 0, fun _ => 0⟩ pairSub s (some f) tr (fun _ _ => 0) id (fun x j => by simp) (fun _ => 0) hnear
    (fun _ _ _ _ _ => by simp) h (by decide)
    (by
      rw [pair_bodies]; intro b hb; simp only [List.mem_cons, List.not_mem_nil, or_false] at hb
      rcases hb with rfl | rfl
      · exact ⟨by norm_num [pairBody], pair_inBox (2 * 0)⟩
      · exact ⟨by norm_num [pairBody], pair_inBox (2 * 1)⟩)
    (by decide) (Or.inl rfl) (by
      match tr, htr with
      | [_], _ => simp)
    (fun b => 2 * ((1 + 78 / 100) * (1 + 2 / 10 ^ 12) - 1) *
      (-([pairBody 0, pairBody 1].map (fun o => splineField (boxDistance Real.sqrt true 100) (28 / 10 * (1 / 10)) 43 1 b.pos (o.mass, o.pos))).sum +
        splineField (boxDistance Real.sqrt true 100) (28 / 10 * (1 / 10)) 43 1 b.pos (b.mass, b.pos))) (by
      intro b rest hp
      rw [pair_bodies] at hp
      have := (hp.map (fun o => splineField (boxDistance Real.sqrt true 100) (28 / 10 * (1 / 10)) 43 1 b.pos (o.mass, o.pos))).sum_eq
      rw [List.map_cons, List.sum_cons] at this
      simp only
      rw [← this]
      refine le_of_eq ?_
      simp only [pairPhysics]
      ring)
  rcases key with ⟨_, hf, _⟩ | ⟨g, hu, hf, _⟩
  · cases hf
  · refine ⟨treeFuel, s, f, tr, h, hn, ?_⟩
    have e : (pairPhysics true treeFuel).hz * (pairPhysics true treeFuel).scale = 0 := by simp [pairPhysics]
    rw [hn, pair_bodies, e] at hu
    exact ⟨_, g, hu⟩

end HBT.Props
