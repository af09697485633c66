import Verif.Props.StoredRun
import Verif.Props.RunExample
/-!
# C79 in a run: an example

The third snapshot of `Props/RunExample`: three subhaloes in one halo; the first sinks into the third and merges, and the third is unbound again.
-/
namespace HBT.Props
open HBT HBT.Model HBT.Spec

/-- Energies left from the snapshot before. -/
def rOld : List (List Int) := [[7], [], [7, 7, 7]]

/-- The hypotheses of `C79_run` and `C79_run_energy` are met. -/
example : ∃ st1 st2 st3, refineStored (rPar false).cfg (rD2.env 0) 2 3 [0] [] [[2, 1, 0]] (rD2.nested 0).2 ((rD2.masked 0).zip rOld) = .ok st1 ∧
    mergeStored (rPar false).cfg (rD2.env' 0) (rPar false).mass true (rD2.sunk 0) 2 4 [0] [1, 0, 2] [[2, 1, 0]] (rD2.nested 0).2 st1 = .ok st2 ∧
    registerStored st2 0 = .ok st3 ∧ ∀ s en, (rD2.out 0)[2]? = some s → (st3.map Prod.snd)[2]? = some en → 9 ≤ en.length ∧ ∀ k < 9, ∃ e, en[k]? = some e ∧ e ≤ 0 := by
  obtain ⟨st1, st2, st3, e1, e2, e3, _, h⟩ := C79_run_energy (rPar_ok false) rfl rRun2 0 rOld (by decide +kernel)
  have l1 : (rD2.masked 0).length = 3 := by decide +kernel
  have l2 : (rD2.refined 0).length = 3 := by decide +kernel
  rw [l1] at e1
  rw [l2] at e2
  refine ⟨st1, st2, st3, e1, e2, e3, fun s en hs hen => ?_⟩
  have hn : (rD2.out 0)[2]?.map Sub.nbound = some 9 := by decide +kernel
  rw [hs] at hn
  have hn : s.nbound = 9 := Option.some.inj hn
  obtain ⟨h1, h2⟩ := h 2 s en hs hen
  obtain ⟨i, own, extra, env, last, _, _, q⟩ := h2 (by unfold Resolved; omega)
  rw [hn] at h1 q
  exact ⟨h1, fun k hk => by
    obtain ⟨a, p, _, _, q3, q4⟩ := q k hk
    exact ⟨_, q3, q4⟩⟩

/-- What the model computes: the merged subhalo keeps one particle, whose energy is the first of its two; the others have as many energies as bound particles; nothing is left of `rOld`. -/
example : (okOr (do
      let st ← refineStored (rPar false).cfg (rD2.env 0) 2 3 [0] [] [[2, 1, 0]] (rD2.nested 0).2 ((rD2.masked 0).zip rOld)
      let st ← mergeStored (rPar false).cfg (rD2.env' 0) (rPar false).mass true (rD2.sunk 0) 2 4 [0] [1, 0, 2] [[2, 1, 0]] (rD2.nested 0).2 st
      registerStored st 0) []).map (fun s => (s.1.nbound, s.2)) =
    [(1, [-1, -1]), (5, [-1, -1, -1, -1, -1]), (9, [-1, -1, -1, -1, -1, -1, -1, -1, -1])] := by
  decide +kernel

end HBT.Props
