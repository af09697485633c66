import Verif.Props.SampledEnergy
import Verif.Props.UnbindStale
/-!
# C80: an example

Three bodies on a line, with potentials from a sample of two.
-/
namespace HBT.Props
open HBT HBT.Model HBT.Spec HBT.UE

theorem lineField_linear (x : Fin 3 → ℚ) (m c : ℚ) (y : Fin 3 → ℚ) : lineField x (m * c, y) = lineField x (m, y) * c := by
  unfold lineField
  ring

def sampleBodies : List (Body ℚ) := [onLine 1 0 (-1 / 2), onLine 2 1 (1 / 2), onLine 3 3 0]

/-- Particle `σ k` at place `k`. -/
def shuffleBy {n : Nat} (σ : Equiv.Perm (Fin n)) (l : List (Particle (Body ℚ))) : List (Particle (Body ℚ)) :=
  if h : l.length = n then List.ofFn (fun k => l[(σ k).val]'(by have := (σ k).isLt; omega)) else l

theorem shuffleBy_perm {n : Nat} (σ : Equiv.Perm (Fin n)) (l : List (Particle (Body ℚ))) : (shuffleBy σ l).Perm l := by
  unfold shuffleBy
  split
  · rename_i h
    subst h
    have := Equiv.Perm.ofFn_comp_perm σ (fun k : Fin l.length => l[k.val])
    simpa [Function.comp_def] using this
  · exact List.Perm.refl _

def sampleRun (σ : Equiv.Perm (Fin 3)) : Outcome (Sub ℚ (Body ℚ) × Option (Frame ℚ) × List (Pass ℚ)) :=
  unbindBodies { lineConfig with maxSample := 2 } linePhysics lineSort (shuffleBy σ) (fun _ => 0) 0 id 9 5 atRest (lineSub sampleBodies)

theorem sampleRun_ok : ∀ σ : Equiv.Perm (Fin 3), ranAs (fun _ _ _ => true) (sampleRun σ) = true := by decide +kernel

/-- `C80_unbiased` applies: over the six shuffles the energies of the second body add up to six times its energy. -/
example : ∃ (e : Equiv.Perm (Fin 3) → ℚ) (tr : Equiv.Perm (Fin 3) → List (Pass ℚ)),
    (∀ σ, ∃ s f, sampleRun σ = .ok (s, f, tr σ)) ∧ (∀ σ, ∃ first rest, tr σ = first :: rest ∧ first.list[(σ.symm 1).val]? = some ⟨σ.symm 1, e σ⟩) ∧
    ∑ σ, e σ = 6 * specificEnergy (fun x y d => x d - y d) lineField 0 false atRest [onLine 1 0 (-1 / 2), onLine 3 3 0] (onLine 2 1 (1 / 2)) := by
  have hrun : ∀ σ, ∃ x : Sub ℚ (Body ℚ) × Option (Frame ℚ) × List (Pass ℚ), sampleRun σ = .ok (x.1, x.2.1, x.2.2) := by
    intro σ
    obtain ⟨s, f, tr, h, _⟩ := ranAs_ok (sampleRun_ok σ)
    exact ⟨(s, f, tr), h⟩
  choose out hout using hrun
  obtain ⟨e, h1, h2⟩ := C80_unbiased { lineConfig with maxSample := 2 } linePhysics rfl lineField 10 lineSolver_exact lineField_linear lineSort (fun _ => 0) 0 id 9 5 atRest
    (lineSub sampleBodies) (fun σ => shuffleBy σ) (fun σ l => shuffleBy_perm σ l) (fun σ => by unfold shuffleBy; rw [dif_pos rfl]; rfl)
    (fun σ => (out σ).1) (fun σ => (out σ).2.1) (fun σ => (out σ).2.2) hout (by decide) (by
      rw [lineSub_bodies]
      intro b hb
      simp only [sampleBodies, List.mem_cons, List.not_mem_nil, or_false] at hb
      rcases hb with rfl | rfl | rfl <;> norm_num [onLine]) (by decide) (by decide) (1 : Fin 3)
  refine ⟨e, fun σ => (out σ).2.2, fun σ => ⟨_, _, hout σ⟩, h1, h2.trans ?_⟩
  have ha : Physics.away linePhysics = fun x y d => x d - y d := by
    funext x y d
    rfl
  have hf : ((lineSub sampleBodies).particles.length.factorial : ℚ) = 6 := by
    have : (lineSub sampleBodies).particles.length.factorial = 6 := by decide
    rw [this]
    norm_num
  have hz : linePhysics.hz * linePhysics.scale = 0 := by norm_num [linePhysics]
  rw [ha, hf, hz]
  rfl

end HBT.Props
