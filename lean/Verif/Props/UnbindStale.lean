import Verif.Props.UnbindRefine
import Mathlib.Tactic.NormNum
/-!
# C76: examples, and a frame that is out of date
-/
namespace HBT.Props
open HBT HBT.Model HBT.Spec HBT.UE

/-- Gravity of bodies on a line, added up body by body. -/
def lineField (x : Fin 3 → ℚ) (w : Weighted ℚ) : ℚ := -(w.1 / max |x 0 - w.2 0| (1 / 10))

def lineSolver (_ : Nat) (bs : List (Weighted ℚ)) : Outcome ((Fin 3 → ℚ) → ℚ → Outcome ℚ) :=
  .ok (fun x m => .ok ((bs.map (lineField x)).sum + m * 10))

theorem lineSolver_exact : ExactGravity lineSolver lineField 10 := by
  refine ⟨?_, fun x m => ?_⟩
  · intro k bs pot x m p _ h1 h2
    cases h1
    cases h2
    rfl
  · have h : max |x 0 - x 0| (1 / 10 : ℚ) = 1 / 10 := by rw [sub_self, abs_zero]; norm_num
    unfold lineField
    simp only [h]
    ring

def linePhysics : Physics ℚ where
  periodic := false
  boxsize := 1
  hz := 0
  scale := 1
  withThermal := false
  solve := lineSolver

def lineConfig : UnbindConfig where
  minNum := 2
  maxSample := 0
  refine := false
  prec := 199 / 200
  relax := 3

def lineSort (l : List (PE ℚ)) : List (PE ℚ) := l.insertionSort (fun a b => a.e ≤ b.e)

theorem lineSort_perm (l : List (PE ℚ)) : (lineSort l).Perm l := List.perm_insertionSort _ _

/-- A body on the line, with a velocity along it. -/
def onLine (m x v : ℚ) : Body ℚ := ⟨m, fun d => if d = 0 then x else 0, fun d => if d = 0 then v else 0, 0⟩

def lineSub (bs : List (Body ℚ)) : Sub ℚ (Body ℚ) := { trackId := 0, mbound := 0, lastMaxMass := 0, particles := bs.mapIdx (fun i b => ⟨i, b⟩) }

def atRest : Frame ℚ := ⟨fun _ => 0, fun _ => 0⟩

def lineRun (bs : List (Body ℚ)) : Outcome (Sub ℚ (Body ℚ) × Option (Frame ℚ) × List (Pass ℚ)) :=
  unbindBodies lineConfig linePhysics lineSort id (fun _ => 0) 0 id 9 5 atRest (lineSub bs)

/-- A run that ended well and is as `good` says. -/
def ranAs (good : Sub ℚ (Body ℚ) → Option (Frame ℚ) → List (Pass ℚ) → Bool) : Outcome (Sub ℚ (Body ℚ) × Option (Frame ℚ) × List (Pass ℚ)) → Bool
  | .ok (s, f, tr) => good s f tr
  | _ => false

theorem ranAs_ok {good : Sub ℚ (Body ℚ) → Option (Frame ℚ) → List (Pass ℚ) → Bool} {r : Outcome (Sub ℚ (Body ℚ) × Option (Frame ℚ) × List (Pass ℚ))}
    (h : ranAs good r = true) : ∃ s f tr, r = .ok (s, f, tr) ∧ good s f tr = true := by
  cases r with
  | ok x => exact ⟨x.1, x.2.1, x.2.2, rfl, h⟩
  | ub => cases h
  | abort => cases h
  | diverge => cases h

instance (p : Pass ℚ) : Decidable (Pass.Brisk p) := inferInstanceAs (Decidable (2 * p.nbound ≤ p.list.length))

/-- Three bound bodies, a fast heavy one, and one that only this one holds. -/
def calmBodies : List (Body ℚ) :=
  [onLine 1 0 (-1 / 2), onLine 1 1 (1 / 2), onLine 1 2 0, onLine (1 / 10) 11 2, onLine 5 10 100]

theorem lineSub_bodies (bs : List (Body ℚ)) : bodiesOf id (lineSub bs).particles = bs := by
  unfold bodiesOf lineSub
  simp only
  apply List.ext_getElem (by simp)
  intro i h1 h2
  simp

/-- `C76_unbinding` applies to this run: three iterations, the last two of them with corrected energies. -/
example : ∃ s f tr, lineRun calmBodies = .ok (s, f, tr) ∧ tr.length = 3 ∧ s.nbound = 3 ∧
    ∃ g, Unbinds (specificEnergy (fun x y d => x d - y d) lineField 0 false) CentreOf 2 (Enough lineConfig) atRest
        calmBodies (some (bodiesOf id (s.particles.take s.nbound), g)) ∧ f = some g := by
  obtain ⟨s, f, tr, h, hg⟩ := ranAs_ok (r := lineRun calmBodies) (good := fun s f tr => f.isSome && (tr.length = 3) && (s.nbound = 3) &&
    decide (tr.dropLast.Pairwise (fun p q => Pass.Brisk q → Pass.Brisk p))) (by decide +kernel)
  simp only [Bool.and_eq_true, decide_eq_true_eq] at hg
  obtain ⟨⟨⟨h1, h2⟩, h3⟩, h4⟩ := hg
  refine ⟨s, f, tr, h, h2, h3, ?_⟩
  have key := C76_unbinding lineConfig linePhysics rfl rfl lineField 10 lineSolver_exact lineSort lineSort_perm id (fun _ => 0) 0 id 9 5 (by decide) atRest
    (lineSub calmBodies) s f tr h (by decide) (by rw [lineSub_bodies]; intro b hb; simp only [calmBodies, List.mem_cons, List.not_mem_nil, or_false] at hb; rcases hb with rfl | rfl | rfl | rfl | rfl <;> norm_num [onLine])
    (by decide) (Or.inl rfl) h4
  rw [lineSub_bodies] at key
  rcases key with ⟨_, hf, _⟩ | ⟨g, hu, hf, _⟩
  · rw [hf] at h1; cases h1
  · exact ⟨g, by simpa [linePhysics, lineConfig] using hu, hf⟩

/-- The same gravity in a box of size 100. -/
def boxField (x : Fin 3 → ℚ) (w : Weighted ℚ) : ℚ := -(w.1 / max |nearest 100 (x 0 - w.2 0)| (1 / 10))

def boxPhysics : Physics ℚ :=
  { linePhysics with periodic := true, boxsize := 100, hz := 1 / 100, solve := fun _ bs => .ok (fun x m => .ok ((bs.map (boxField x)).sum + m * 10)) }

theorem boxSolver_exact : ExactGravity boxPhysics.solve boxField 10 := by
  refine ⟨?_, fun x m => ?_⟩
  · intro k bs pot x m p _ h1 h2
    cases h1
    cases h2
    rfl
  · have h : max |nearest 100 (x 0 - x 0)| (1 / 10 : ℚ) = 1 / 10 := by rw [sub_self]; unfold nearest; norm_num
    unfold boxField
    simp only [h]
    ring

/-- As `calmBodies`, but at the edge of the box. -/
def edgeBodies : List (Body ℚ) :=
  [onLine 1 99 (-1 / 2), onLine 1 0 (1 / 2), onLine 1 1 0, onLine (1 / 10) 10 2, onLine 5 9 100]

/-- `C76_unbinding_periodic` applies to bodies at both edges of the box. -/
example : ∃ s f tr, unbindBodies lineConfig boxPhysics lineSort id (fun _ => 0) 0 id 9 5 atRest (lineSub edgeBodies) = .ok (s, f, tr) ∧ tr.length = 3 ∧ s.nbound = 3 ∧
    ∃ g, Unbinds (specificEnergy (fun x y d => nearest 100 (x d - y d)) boxField (1 / 100) false)
        (CentreInBox 100 (fun x j => x j - (if 50 ≤ x j then (1 : ℤ) else 0) * 100)) 2 (Enough lineConfig) atRest
        edgeBodies (some (bodiesOf id (s.particles.take s.nbound), g)) ∧ f = some g := by
  obtain ⟨s, f, tr, h, hg⟩ := ranAs_ok (r := unbindBodies lineConfig boxPhysics lineSort id (fun _ => 0) 0 id 9 5 atRest (lineSub edgeBodies))
    (good := fun s f tr => f.isSome && (tr.length = 3) && (s.nbound = 3) &&
    decide (tr.dropLast.Pairwise (fun p q => Pass.Brisk q → Pass.Brisk p))) (by decide +kernel)
  simp only [Bool.and_eq_true, decide_eq_true_eq] at hg
  obtain ⟨⟨⟨h1, h2⟩, h3⟩, h4⟩ := hg
  refine ⟨s, f, tr, h, h2, h3, ?_⟩
  have key := C76_unbinding_periodic lineConfig boxPhysics rfl (by decide) rfl boxField 10 boxSolver_exact lineSort lineSort_perm id (fun _ => 0) 0 id 9 5
    (by decide) atRest (lineSub edgeBodies) s f tr (fun x j => if 50 ≤ x j then (1 : ℤ) else 0) (fun x j => x j - (if 50 ≤ x j then (1 : ℤ) else 0) * 100)
    (fun x j => by simp [boxPhysics]) (fun _ => 0)
    (by
      rw [lineSub_bodies]
      intro x hx j
      simp only [edgeBodies, onLine, atRest, List.map_cons, List.map_nil, List.mem_cons, List.not_mem_nil, or_false] at hx
      rcases hx with rfl | rfl | rfl | rfl | rfl | rfl <;> fin_cases j <;> norm_num [boxPhysics, abs_lt])
    (by
      intro x _ y _ j
      split_ifs <;> norm_num)
    h (by decide) (by rw [lineSub_bodies]; intro b hb; simp only [edgeBodies, List.mem_cons, List.not_mem_nil, or_false] at hb; rcases hb with rfl | rfl | rfl | rfl | rfl <;> norm_num [onLine])
    (by decide) (Or.inl rfl) h4
  rw [lineSub_bodies] at key
  rcases key with ⟨_, hf, _⟩ | ⟨g, hu, hf, _⟩
  · rw [hf] at h1; cases h1
  · exact ⟨g, by simpa [boxPhysics, linePhysics, lineConfig] using hu, hf⟩

/-- The tree gives potentials: `C76_tree_exact` is about something. -/
example : ((treeSolver false (1 : ℚ) id (1 / 10) 0 1 1 (1 / 5) (1 / 10) (fun _ _ => 0) (fun _ => []) 50 0 [(1, fun _ => 0), (2, fun _ => 1)] >>=
    fun pot => pot (fun _ => 0) 1) = .ok (-2 / 3)) := by decide +kernel

/-- The energy does not depend on the order of the other bodies. -/
theorem specificEnergy_perm {K : Type} [Field K] (away : (Fin 3 → K) → (Fin 3 → K) → Fin 3 → K) (field : (Fin 3 → K) → K × (Fin 3 → K) → K) (hubble : K) (warm : Bool)
    (f : Frame K) {o o' : List (Body K)} (h : o.Perm o') (b : Body K) : specificEnergy away field hubble warm f o b = specificEnergy away field hubble warm f o' b := by
  unfold specificEnergy
  rw [(h.map _).sum_eq]

/-- A way to check a split, by the numbers of the bodies. -/
theorem split_indices {K : Type} [Field K] [LE K] {energy : List (Body K) → Body K → K} (he : ∀ o o' b, o.Perm o' → energy o b = energy o' b)
    (l : List (Body K)) (I J : List Nat) (hp : (I ++ J).Perm (List.range l.length))
    (hI : ∀ i ∈ I, ∀ b, l[i]? = some b → energy (l.eraseIdx i) b ≤ 0) (hJ : ∀ i ∈ J, ∀ b, l[i]? = some b → 0 ≤ energy (l.eraseIdx i) b) :
    Split energy l (I.filterMap (fun i => l[i]?)) (J.filterMap (fun i => l[i]?)) := by
  have hall : (List.range l.length).filterMap (fun i => l[i]?) = l := by
    apply List.ext_getElem?
    intro i
    clear hI hJ hp he
    have : ∀ n, n ≤ l.length → (List.range n).filterMap (fun i => l[i]?) = l.take n := by
      intro n
      induction n with
      | zero => intro _; simp
      | succ n ih =>
        intro hn
        rw [List.range_succ, List.filterMap_append, ih (by omega), List.take_add_one, List.getElem?_eq_getElem (by omega)]
        simp [List.getElem?_eq_getElem (show n < l.length by omega)]
    rw [this _ le_rfl, List.take_length]
  have key : ∀ i b others, l[i]? = some b → (b :: others).Perm l → energy others b = energy (l.eraseIdx i) b := by
    intro i b others hb ho
    obtain ⟨hi, hb⟩ := List.getElem?_eq_some_iff.1 hb
    refine he _ _ _ ?_
    have h1 : (b :: l.eraseIdx i).Perm l := by rw [← hb]; exact List.getElem_cons_eraseIdx_perm hi
    exact (ho.trans h1.symm).cons_inv
  refine ⟨?_, ?_, ?_⟩
  · rw [← List.filterMap_append]
    conv_rhs => rw [← hall]
    exact hp.filterMap _
  · intro b hb others ho
    obtain ⟨i, hi, hb⟩ := List.mem_filterMap.1 hb
    rw [key i b others hb ho]
    exact hI i hi b hb
  · intro b hb others ho
    obtain ⟨i, hi, hb⟩ := List.mem_filterMap.1 hb
    rw [key i b others hb ho]
    rw [neg_zero]
    exact hJ i hi b hb

/-- Two slow bodies that hold each other, two fast light ones, and a very fast heavy one. -/
def staleBodies : List (Body ℚ) :=
  [onLine (9 / 10) (-100) 6, onLine (9 / 10) 0 0, onLine (9 / 10) 1 2, onLine (9 / 10) 101 (-4), onLine 10000 50 1000000]

def centre (l : List (Body ℚ)) : Frame ℚ := ⟨massMean (l.map (fun b => (b.mass, b.pos))), massMean (l.map (fun b => (b.mass, b.vel)))⟩

/-- C76, finding: without the condition on the iterations the energies can be wrong. The old frame is only recorded when fewer than half of the bodies were
removed, and once recorded it is used for ever. Here five bodies are in a line. The first iteration removes one, the second one two of four, and the
third one corrects the energies as if the frame had been that of the first iteration: it finds a body with energy 1/10 that has energy -2/5. The subhalo is
disrupted. As specified, two bodies stay. -/
theorem C76_stale_frame :
    (∃ s tr, lineRun staleBodies = .ok (s, none, tr) ∧ s.nbound = 1 ∧ s.snapDeath = 5 ∧
      ∃ p ∈ tr, p.list.map (fun e => (e.pid, e.e)) = [(2, -19 / 10), (1, 1 / 10)] ∧
        specificEnergy (fun x y d => x d - y d) lineField 0 false p.frame [onLine (9 / 10) 1 2] (onLine (9 / 10) 0 0) = -2 / 5) ∧
    Unbinds (specificEnergy (fun x y d => x d - y d) lineField 0 false) CentreOf 2 (Enough lineConfig) atRest staleBodies
      (some ([onLine (9 / 10) 0 0, onLine (9 / 10) 1 2], centre [onLine (9 / 10) 0 0, onLine (9 / 10) 1 2])) := by
  constructor
  · obtain ⟨s, f, tr, h, hg⟩ := ranAs_ok (r := lineRun staleBodies) (good := fun s f tr => f.isNone && (s.nbound = 1) && (s.snapDeath = 5) &&
      decide (∃ p ∈ tr, p.list.map (fun e => (e.pid, e.e)) = [(2, -19 / 10), (1, 1 / 10)] ∧
        specificEnergy (fun x y d => x d - y d) lineField 0 false p.frame [onLine (9 / 10) 1 2] (onLine (9 / 10) 0 0) = -2 / 5)) (by decide +kernel)
    simp only [Bool.and_eq_true, decide_eq_true_eq, Option.isNone_iff_eq_none] at hg
    obtain ⟨⟨⟨h1, h2⟩, h3⟩, h4⟩ := hg
    exact ⟨s, tr, by rw [h, h1], h2, h3, h4⟩
  · have hsplit : ∀ (f : Frame ℚ) (l : List (Body ℚ)) (I J : List Nat), (I ++ J).Perm (List.range l.length) →
        (∀ i ∈ I, ∀ b, l[i]? = some b → specificEnergy (fun x y d => x d - y d) lineField 0 false f (l.eraseIdx i) b ≤ 0) →
        (∀ i ∈ J, ∀ b, l[i]? = some b → 0 ≤ specificEnergy (fun x y d => x d - y d) lineField 0 false f (l.eraseIdx i) b) →
        Split (specificEnergy (fun x y d => x d - y d) lineField 0 false f) l (I.filterMap (fun i => l[i]?)) (J.filterMap (fun i => l[i]?)) :=
      fun f l I J => split_indices (fun o o' b h => specificEnergy_perm _ _ _ _ _ h b) l I J
    have neg : ∀ (f : Frame ℚ) (l : List (Body ℚ)) (I : List Nat), (I.all (fun i => (l[i]?).all (fun b => decide
        (specificEnergy (fun x y d => x d - y d) lineField 0 false f (l.eraseIdx i) b ≤ 0)))) = true →
        ∀ i ∈ I, ∀ b, l[i]? = some b → specificEnergy (fun x y d => x d - y d) lineField 0 false f (l.eraseIdx i) b ≤ 0 := by
      intro f l I h i hi b hb
      have := List.all_eq_true.1 h i hi
      rw [hb] at this
      simpa using this
    have pos : ∀ (f : Frame ℚ) (l : List (Body ℚ)) (I : List Nat), (I.all (fun i => (l[i]?).all (fun b => decide
        (0 ≤ specificEnergy (fun x y d => x d - y d) lineField 0 false f (l.eraseIdx i) b)))) = true →
        ∀ i ∈ I, ∀ b, l[i]? = some b → 0 ≤ specificEnergy (fun x y d => x d - y d) lineField 0 false f (l.eraseIdx i) b := by
      intro f l I h i hi b hb
      have := List.all_eq_true.1 h i hi
      rw [hb] at this
      simpa using this
    refine .again (g := centre (staleBodies.take 4)) (hsplit _ _ [0, 1, 2, 3] [4] (by decide) (neg _ _ _ (by decide +kernel)) (pos _ _ _ (by decide +kernel)))
      (by decide) (by unfold Enough; decide +kernel) ⟨rfl, rfl⟩ ?_
    refine .again (g := centre [onLine (9 / 10) 0 0, onLine (9 / 10) 1 2]) (hsplit _ _ [1, 2] [0, 3] (by decide) (neg _ _ _ (by decide +kernel)) (pos _ _ _ (by decide +kernel)))
      (by decide) (by unfold Enough; decide +kernel) ⟨rfl, rfl⟩ ?_
    exact .converged (hsplit _ _ [0, 1] [] (by decide) (neg _ _ _ (by decide +kernel)) (pos _ _ _ (by decide +kernel)))
      (by decide) (by unfold Enough; decide +kernel) ⟨rfl, rfl⟩

end HBT.Props
