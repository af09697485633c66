import Verif.Props.SampledUnbind
import Verif.Props.TreeUnbind
/-!
# C80: unbinding with the tree of the program, samples and rounding
-/
namespace HBT.Props
open HBT HBT.Model HBT.Spec HBT.UE HBT.OT HBT.Spl
variable {K D : Type} [Field K] [LinearOrder K] [IsStrictOrderedRing K]

/-- C80, for the program as it is: unbinding in free space with the octree at any opening angle below `1/√3`, with potentials of samples and with energies rounded when they are stored. The
bodies are unbound as specified for C76, up to errors of the energies: those of the samples taken and of the octree (`hsl`), and those of rounding (`hRs`). -/
theorem C80_unbinding_tree [FloorRing K] (cfg : UnbindConfig) (ph : Physics K) (hper : ph.periodic = false) (u : K) (hfl : RoundsWithin ph.fl u)
    (sqrt : K → K) (hr : IsRoot sqrt) (soft : K) (hsoft : 0 < soft)
    (angle2 s : K) (h0 : 0 ≤ angle2) (hs0 : 0 ≤ s) (hs1 : s < 1) (hs : 3 * angle2 ≤ s ^ 2) (G : K) (hG : 0 ≤ G) (ha : 0 < ph.scale)
    (res resHalf : K) (hres : res = 2 * resHalf) (rand : Nat → Nat → Nat) (old : Nat → List Int) (treeFuel : Nat)
    (hsolve : ph.solve = treeSolver ph.periodic ph.boxsize sqrt soft angle2 G ph.scale res resHalf rand old treeFuel)
    (field : (Fin 3 → K) → K × (Fin 3 → K) → K) (hfield : field = splineField (fun x y => sqrt (sqDist x y)) (28 / 10 * soft) G ph.scale)
    (slack R : Body K → K) (hR0 : ∀ b, 0 ≤ R b)
    (sortE : List (PE K) → List (PE K)) (hsort : ∀ l, (sortE l).Perm l) (shuffle : List (Particle D) → List (Particle D)) (hsh : ∀ l, (shuffle l).Perm l)
    (junk : Nat → K) (way : Nat) (body : D → Body K) (fuel : Nat) (snap : Int) (hsnap : snap ≠ nullSnap) (ref : Frame K) (t t' : Sub K D)
    (f : Option (Frame K)) (tr : List (Pass K))
    (h : unbindBodies cfg ph sortE shuffle junk way body fuel snap ref t = .ok (t', f, tr)) (hn : 2 ≤ t.particles.length)
    (hm : ∀ b ∈ bodiesOf body t.particles, 0 < b.mass) (hmin : 0 < cfg.minNum) (qs : List (Particle D))
    (hqs : qs = if 0 < cfg.maxSample ∧ cfg.maxSample < t.particles.length then shuffle t.particles else t.particles)
    (hbr : tr.dropLast.Pairwise (fun p q => Pass.Slow cfg p → Pass.Slow cfg q))
    (hRs : ∀ p ∈ tr, RoundingOf ph u R (bodiesOf body qs) p.list)
    (hsl : ∀ pre p post, tr = pre ++ p :: post → (∀ q ∈ pre, ¬ Pass.Slow cfg q) →
      SampleWithin field (fun x w => ((1 + s) * (1 + 2 / 10 ^ 12) - 1) * -field x w) slack cfg.maxSample (entryBodies (bodiesOf body qs) p.list)) :
    (UnbindsWithin (fun b => slack b + (1 + tr.length : Nat) * R b) (specificEnergy (fun x y d => x d - y d) field (ph.hz * ph.scale) ph.withThermal)
        CentreOf cfg.minNum (Enough cfg) ref (bodiesOf body t.particles) none ∧ f = none ∧ t'.nbound = 1 ∧ t'.snapDeath ≠ nullSnap) ∨
    ∃ g, UnbindsWithin (fun b => slack b + (1 + tr.length : Nat) * R b) (specificEnergy (fun x y d => x d - y d) field (ph.hz * ph.scale) ph.withThermal)
        CentreOf cfg.minNum (Enough cfg) ref (bodiesOf body t.particles) (some (bodiesOf body (t'.particles.take t'.nbound), g)) ∧
      f = some g ∧ t'.snapDeath = nullSnap := by
  have hd : (fun x y : Fin 3 → K => sqrt (sqDist x y)) = boxDistance sqrt ph.periodic ph.boxsize := by
    funext x y
    unfold boxDistance treeDist2 treeOffset sqDist
    rw [hper]
    simp only [Bool.false_eq_true, if_false]
    congr 1
    ring
  rw [hd] at hfield
  have hnear := C77_tree_near ph.periodic ph.boxsize (fun h => by rw [hper] at h; cases h) sqrt hr soft hsoft angle2 s h0 hs0 hs1 hs G ph.scale hG ha res resHalf hres rand old
    treeFuel
  rw [← hsolve, ← hfield] at hnear
  have hin : ∀ x : Fin 3 → K, ph.periodic = true → InBox ph.boxsize x := fun x h => by rw [hper] at h; cases h
  exact C80_unbinding_rounded cfg ph hper u hfl _ _ _ hnear slack R hR0 sortE hsort shuffle hsh junk way body fuel snap hsnap ref t t' f tr h hn
    (fun b hb => ⟨hm b hb, hin b.pos⟩) hmin qs hqs hbr hRs hsl

/-- C80: the same in a periodic box; `turns`, `free` and `c` as in `C76_unbinding_periodic`. -/
theorem C80_unbinding_tree_periodic [FloorRing K] (cfg : UnbindConfig) (ph : Physics K) (hper : ph.periodic = true) (hB : 0 < ph.boxsize) (u : K) (hfl : RoundsWithin ph.fl u)
    (sqrt : K → K) (hr : IsRoot sqrt) (soft : K) (hsoft : 0 < soft)
    (angle2 s : K) (h0 : 0 ≤ angle2) (hs0 : 0 ≤ s) (hs1 : s < 1) (hs : 3 * angle2 ≤ s ^ 2) (G : K) (hG : 0 ≤ G) (ha : 0 < ph.scale)
    (res resHalf : K) (hres : res = 2 * resHalf) (rand : Nat → Nat → Nat) (old : Nat → List Int) (treeFuel : Nat)
    (hsolve : ph.solve = treeSolver ph.periodic ph.boxsize sqrt soft angle2 G ph.scale res resHalf rand old treeFuel)
    (field : (Fin 3 → K) → K × (Fin 3 → K) → K) (hfield : field = splineField (boxDistance sqrt true ph.boxsize) (28 / 10 * soft) G ph.scale)
    (slack R : Body K → K) (hR0 : ∀ b, 0 ≤ R b)
    (sortE : List (PE K) → List (PE K)) (hsort : ∀ l, (sortE l).Perm l) (shuffle : List (Particle D) → List (Particle D)) (hsh : ∀ l, (shuffle l).Perm l)
    (junk : Nat → K) (way : Nat) (body : D → Body K) (fuel : Nat) (snap : Int) (hsnap : snap ≠ nullSnap) (ref : Frame K) (t t' : Sub K D)
    (f : Option (Frame K)) (tr : List (Pass K))
    (turns : (Fin 3 → K) → Fin 3 → ℤ) (free : (Fin 3 → K) → Fin 3 → K) (hfree : ∀ x j, x j = free x j + turns x j * ph.boxsize) (c : Fin 3 → K)
    (hclose : ∀ x ∈ ref.pos :: (bodiesOf body t.particles).map Body.pos, ∀ j, |free x j - c j| < ph.boxsize / 4)
    (hbox : ∀ x ∈ ref.pos :: (bodiesOf body t.particles).map Body.pos, ∀ y ∈ ref.pos :: (bodiesOf body t.particles).map Body.pos, ∀ j,
      |turns x j - turns y j| ≤ 1)
    (h : unbindBodies cfg ph sortE shuffle junk way body fuel snap ref t = .ok (t', f, tr)) (hn : 2 ≤ t.particles.length)
    (hm : ∀ b ∈ bodiesOf body t.particles, 0 < b.mass ∧ InBox ph.boxsize b.pos) (hmin : 0 < cfg.minNum) (qs : List (Particle D))
    (hqs : qs = if 0 < cfg.maxSample ∧ cfg.maxSample < t.particles.length then shuffle t.particles else t.particles)
    (hbr : tr.dropLast.Pairwise (fun p q => Pass.Slow cfg p → Pass.Slow cfg q))
    (hRs : ∀ p ∈ tr, RoundingOf ph u R (bodiesOf body qs) p.list)
    (hsl : ∀ pre p post, tr = pre ++ p :: post → (∀ q ∈ pre, ¬ Pass.Slow cfg q) →
      SampleWithin field (fun x w => ((1 + s) * (1 + 2 / 10 ^ 12) - 1) * -field x w) slack cfg.maxSample (entryBodies (bodiesOf body qs) p.list)) :
    (UnbindsWithin (fun b => slack b + (1 + tr.length : Nat) * R b) (specificEnergy (fun x y d => nearest ph.boxsize (x d - y d)) field (ph.hz * ph.scale) ph.withThermal)
        (CentreInBox ph.boxsize free) cfg.minNum (Enough cfg) ref (bodiesOf body t.particles) none ∧ f = none ∧ t'.nbound = 1 ∧ t'.snapDeath ≠ nullSnap) ∨
    ∃ g, UnbindsWithin (fun b => slack b + (1 + tr.length : Nat) * R b) (specificEnergy (fun x y d => nearest ph.boxsize (x d - y d)) field (ph.hz * ph.scale) ph.withThermal)
        (CentreInBox ph.boxsize free) cfg.minNum (Enough cfg) ref (bodiesOf body t.particles) (some (bodiesOf body (t'.particles.take t'.nbound), g)) ∧
      f = some g ∧ t'.snapDeath = nullSnap := by
  rw [← hper] at hfield
  have hnear := C77_tree_near ph.periodic ph.boxsize (fun _ => hB) sqrt hr soft hsoft angle2 s h0 hs0 hs1 hs G ph.scale hG ha res resHalf hres rand old treeFuel
  rw [← hsolve, ← hfield] at hnear
  exact C80_unbinding_rounded_periodic cfg ph hper hB u hfl _ _ _ hnear slack R hR0 sortE hsort shuffle hsh junk way body fuel snap hsnap ref t t' f tr turns free hfree c hclose hbox h hn
    (fun b hb => ⟨(hm b hb).1, fun _ => (hm b hb).2⟩) hmin qs hqs hbr hRs hsl

/-! ## Non-vacuity -/

/-- All iterations of the unbinding of the two bodies are about both. -/
theorem pair_entries {periodic : Bool} {treeFuel : Nat} {s : Sub ℝ (Body ℝ)} {f : Option (Frame ℝ)} {tr : List (Pass ℝ)}
    (h : unbindBodies pairConfig (pairPhysics periodic treeFuel) id id (fun _ => 0) 0 id 1 5 ⟨fun _ => 0, fun _ => 0⟩ pairSub = .ok (s, f, tr)) (htr : tr.length = 1) :
    ∀ p ∈ tr, entryBodies (bodiesOf id pairSub.particles) p.list = [pairBody 0, pairBody 1] := by
  obtain ⟨res, hrun, _⟩ := bodies_run h (by decide) (Or.inl rfl) (by decide)
  obtain ⟨l1, r1, L, nb, st⟩ := step_of hrun
  obtain ⟨_, hpid, _, _⟩ := st.shape
  have hcur : ∃ tl, tr = (⟨⟨fun _ => 0, fun _ => 0⟩, l1.take 2, nb⟩ : Pass ℝ) :: tl := by
    rcases st.next with ⟨_, e, _⟩ | ⟨_, _, e, _⟩ | ⟨_, _, tl, e, _⟩ <;> exact ⟨_, e⟩
  obtain ⟨tl, rfl⟩ := hcur
  have htl : tl = [] := by simpa using htr
  subst htl
  intro p hp
  rw [List.mem_singleton] at hp
  subst hp
  simp only
  rw [members_map, List.map_take, hpid]
  rfl

/-- `C80_unbinding_tree` applies, with the slack of C77. -/
example : ∃ treeFuel s f tr, unbindBodies pairConfig (pairPhysics false treeFuel) id id (fun _ => 0) 0 id 1 5 ⟨fun _ => 0, fun _ => 0⟩ pairSub = .ok (s, some f, tr) ∧ s.nbound = 2 ∧
    ∃ g, UnbindsWithin pairSlack (specificEnergy (fun x y d => x d - y d) (splineField (fun x y => Real.sqrt (sqDist x y)) (28 / 10 * (1 / 10)) 43 1) 0 false) CentreOf 2
      (Enough pairConfig) ⟨fun _ => 0, fun _ => 0⟩ [pairBody 0, pairBody 1] (some (bodiesOf id (s.particles.take 2), g)) := by
  obtain ⟨treeFuel, s, f, tr, h, hn, htr⟩ := pair_run false
  have hent := pair_entries h htr
  have key := C80_unbinding_tree pairConfig (pairPhysics false treeFuel) rfl 0 ⟨le_rfl, fun v => by simp [pairPhysics]⟩ Real.sqrt real_root (1 / 10) (by norm_num) ((45 / 100) ^ 2)
    (78 / 100) (by norm_num) (by norm_num) (by norm_num)
    (by norm_num) 43 (by norm_num) (by norm_num [pairPhysics]) 1 (1 / 2) (by norm_num) (fun _ _ => 3) (fun _ => []) treeFuel rfl _ rfl pairSlack (fun _ => 0) (fun _ => le_rfl)
    id (fun _ => List.Perm.refl _) id (fun _ => List.Perm.refl _) (fun _ => 0) 0 id 1 5
    (by decide) ⟨fun _ => 0, fun _ => 0⟩ pairSub s (some f) tr h (by decide) (by rw [pair_bodies]; intro b hb; simp only [List.mem_cons, List.not_mem_nil, or_false] at hb; rcases hb with rfl | rfl <;> norm_num [pairBody])
    (by decide) pairSub.particles rfl (by
      match tr, htr with
      | [_], _ => simp)
    (fun p _ e _ b _ => by simp) (by
      intro pre p post e _ i b hb
      rw [hent p (by rw [e]; simp)] at hb ⊢
      have hs : sampleOf pairConfig.maxSample [pairBody 0, pairBody 1] = [pairBody 0, pairBody 1] := rfl
      rw [hs, sub_self, abs_zero]
      have hp : (b :: [pairBody 0, pairBody 1].eraseIdx i).Perm [pairBody 0, pairBody 1] := by
        obtain ⟨h1, h2⟩ := List.getElem?_eq_some_iff.1 hb
        rw [← h2]
        exact List.getElem_cons_eraseIdx_perm h1
      have := (hp.map (fun o => splineField (fun x y => Real.sqrt (sqDist x y)) (28 / 10 * (1 / 10)) 43 1 b.pos (o.mass, o.pos))).sum_eq
      rw [List.map_cons, List.sum_cons] at this
      unfold pairSlack sumOf
      rw [← this, List.sum_map_mul_left, sum_neg]
      refine le_of_eq ?_
      simp only [pairPhysics]
      ring)
  rcases key with ⟨_, hf, _⟩ | ⟨g, hu, hf, _⟩
  · cases hf
  · refine ⟨treeFuel, s, f, tr, h, hn, g, ?_⟩
    rw [hn, pair_bodies] at hu
    simpa [pairPhysics, pairConfig] using hu

/-- `C80_unbinding_tree_periodic` applies as well. -/
example : ∃ treeFuel s f tr, unbindBodies pairConfig (pairPhysics true treeFuel) id id (fun _ => 0) 0 id 1 5 ⟨fun _ => 0, fun _ => 0⟩ pairSub = .ok (s, some f, tr) ∧ s.nbound = 2 ∧
    ∃ slack g, UnbindsWithin slack (specificEnergy (fun x y d => nearest 100 (x d - y d)) (splineField (boxDistance Real.sqrt true 100) (28 / 10 * (1 / 10)) 43 1) 0 false)
      (CentreInBox 100 id) 2 (Enough pairConfig) ⟨fun _ => 0, fun _ => 0⟩ [pairBody 0, pairBody 1] (some (bodiesOf id (s.particles.take 2), g)) := by
  obtain ⟨treeFuel, s, f, tr, h, hn, htr⟩ := pair_run true
  have hent := pair_entries h htr
  have hnear : ∀ x ∈ (fun _ => 0) :: (bodiesOf id pairSub.particles).map Body.pos, ∀ j : Fin 3, |id x j - (fun _ => 0) j| < (100 : ℝ) / 4 := by
    intro x hx j
    rw [pair_bodies] at hx
    simp only [List.map_cons, List.map_nil, List.mem_cons, List.not_mem_nil, or_false, pairBody, threePos] at hx
    rcases hx with rfl | rfl | rfl <;> norm_num
  have key := C80_unbinding_tree_periodic pairConfig (pairPhysics true treeFuel) rfl (by norm_num [pairPhysics]) 0 ⟨le_rfl, fun v => by simp [pairPhysics]⟩ Real.sqrt real_root
    (1 / 10) (by norm_num) ((45 / 100) ^ 2) (78 / 100)
    (by norm_num) (by norm_num) (by norm_num) (by norm_num) 43 (by norm_num) (by norm_num [pairPhysics]) 1 (1 / 2) (by norm_num) (fun _ _ => 3) (fun _ => []) treeFuel rfl _ rfl
    (fun b => 2 * ((1 + 78 / 100) * (1 + 2 / 10 ^ 12) - 1) *
      (-([pairBody 0, pairBody 1].map (fun o => splineField (boxDistance Real.sqrt true 100) (28 / 10 * (1 / 10)) 43 1 b.pos (o.mass, o.pos))).sum +
        splineField (boxDistance Real.sqrt true 100) (28 / 10 * (1 / 10)) 43 1 b.pos (b.mass, b.pos))) (fun _ => 0) (fun _ => le_rfl) id
    (fun _ => List.Perm.refl _) id (fun _ => List.Perm.refl _) (fun _ => 0) 0 id 1 5 (by decide) ⟨fun _ => 0, fun _ => 0⟩ pairSub s (some f) tr (fun _ _ => 0) id (fun x j => by simp)
    (fun _ => 0) hnear (fun _ _ _ _ _ => by simp) h (by decide)
    (by
      rw [pair_bodies]; intro b hb; simp only [List.mem_cons, List.not_mem_nil, or_false] at hb
      rcases hb with rfl | rfl
      · exact ⟨by norm_num [pairBody], pair_inBox (2 * 0)⟩
      · exact ⟨by norm_num [pairBody], pair_inBox (2 * 1)⟩)
    (by decide) pairSub.particles rfl (by
      match tr, htr with
      | [_], _ => simp)
    (fun p _ e _ b _ => by simp) (by
      intro pre p post e _ i b hb
      rw [hent p (by rw [e]; simp)] at hb ⊢
      have hs : sampleOf pairConfig.maxSample [pairBody 0, pairBody 1] = [pairBody 0, pairBody 1] := rfl
      rw [hs, sub_self, abs_zero]
      have hp : (b :: [pairBody 0, pairBody 1].eraseIdx i).Perm [pairBody 0, pairBody 1] := by
        obtain ⟨h1, h2⟩ := List.getElem?_eq_some_iff.1 hb
        rw [← h2]
        exact List.getElem_cons_eraseIdx_perm h1
      have := (hp.map (fun o => splineField (boxDistance Real.sqrt true 100) (28 / 10 * (1 / 10)) 43 1 b.pos (o.mass, o.pos))).sum_eq
      rw [List.map_cons, List.sum_cons] at this
      unfold sumOf
      simp only
      rw [← this, List.sum_map_mul_left, sum_neg]
      refine le_of_eq ?_
      simp only [pairPhysics]
      ring)
  rcases key with ⟨_, hf, _⟩ | ⟨g, hu, hf, _⟩
  · cases hf
  · refine ⟨treeFuel, s, f, tr, h, hn, ?_⟩
    have e : (pairPhysics true treeFuel).hz * (pairPhysics true treeFuel).scale = 0 := by simp [pairPhysics]
    rw [hn, pair_bodies, e] at hu
    exact ⟨_, g, hu⟩

end HBT.Props
