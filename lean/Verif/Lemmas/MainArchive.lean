import Verif.Lemmas.MainRun
/-!
# Sessions of the main loop and the catalogues they leave
-/
set_option linter.unusedSectionVars false
namespace HBT.MainLoop
open HBT HBT.Model HBT.Spec HBT.Props
variable {K D E S R : Type}

/-! ## Particle data do not matter to the next snapshot -/

theorem survivors_reloaded (blank : D) (all : List (Particle D)) (hall : ∀ p ∈ all, p.id ≠ nullId) : ∀ ps : List (Particle D),
    survivors ((ps.map (fun p => (⟨p.id, blank⟩ : Particle D))).map (currentOf all)) = survivors (ps.map (currentOf all)) := by
  intro ps
  induction ps with
  | nil => rfl
  | cons p ps ih =>
    unfold survivors at ih ⊢
    simp only [List.map_cons, List.filter_cons, ih]
    by_cases h : p.id ∈ all.map Particle.id
    · have : currentOf all (⟨p.id, blank⟩ : Particle D) = currentOf all p := by
        unfold currentOf
        obtain ⟨q, hq, e⟩ := List.mem_map.1 h
        cases hf : all.find? (fun q => q.id == p.id) with
        | none =>
          rw [List.find?_eq_none] at hf
          exact absurd (by simpa using e) (hf q hq)
        | some q => simp [hf]
      rw [this]
    · rw [currentOf_missing h, currentOf_missing (show (⟨p.id, blank⟩ : Particle D).id ∉ _ from h)]
      simp

theorem current_reloaded (blank : D) (all : List (Particle D)) (ps : List (Particle D)) (h : ∀ p ∈ ps, p.id ∈ all.map Particle.id) :
    (ps.map (fun p => (⟨p.id, blank⟩ : Particle D))).map (currentOf all) = ps.map (currentOf all) := by
  rw [List.map_map]
  refine List.map_congr_left (fun p hp => ?_)
  simp only [Function.comp]
  unfold currentOf
  obtain ⟨q, hq, e⟩ := List.mem_map.1 (h p hp)
  cases hf : all.find? (fun q => q.id == p.id) with
  | none =>
    rw [List.find?_eq_none] at hf
    exact absurd (by simpa using e) (hf q hq)
  | some q => simp [hf]

theorem reloaded_source (blank : D) (s : Sub K D) :
    reloaded .source blank s = s.withParticles (s.particles.map (fun p => (⟨p.id, blank⟩ : Particle D))) := by
  unfold reloaded Sub.withParticles
  simp [Function.comp_def]

theorem renew_reloaded [MassSum K] (b : Build K D S) (blank : D) {all : List (Particle D)} {ids : List Int}
    (hids : (all.map Particle.id).Perm ids) (h0 : ∀ i ∈ ids, 0 ≤ i) {s : Sub K D} (hk : ∀ p ∈ s.particles, Known b.dmOnly ids p.id) :
    renew b all (reloaded .source blank s) = renew b all s := by
  have hall : ∀ p ∈ all, p.id ≠ nullId := by
    intro p hp e
    have := h0 p.id (hids.mem_iff.1 (List.mem_map_of_mem hp))
    rw [e] at this
    unfold nullId at this
    omega
  rw [reloaded_source]
  unfold renew fresh Sub.withParticles
  cases hd : b.dmOnly with
  | true =>
    have hin : ∀ p ∈ s.particles, p.id ∈ all.map Particle.id := by
      intro p hp
      rcases hk p hp with h | ⟨h, _⟩
      · exact hids.mem_iff.2 h
      · rw [hd] at h; cases h
    simp only [if_true]
    rw [current_reloaded blank all s.particles hin]
  | false =>
    simp only [Bool.false_eq_true, if_false]
    rw [survivors_reloaded blank all hall s.particles, ← List.map_take, ← List.map_take, survivors_reloaded blank all hall,
      ← List.map_take]

theorem iteration_congr [LinearOrder K] [MassSum K] [Mul K] [LinearOrder R] [LinearOrder E] [Zero E] {P : Nat} {b : Build K D S}
    {ids : List Int} {w : SnapInput K D E S R P} (hb : BuildOk b) (hw : SnapInputOk b ids w) {st st' : Fin P → List (Sub K D)}
    (hn : ∀ r, ∀ s ∈ st r, s.nbound ≤ s.particles.length) (hk : ∀ r, AllOf (fun p => Known b.dmOnly ids p.id) (st r))
    (hn' : ∀ r, ∀ s ∈ st' r, s.nbound ≤ s.particles.length) (hk' : ∀ r, AllOf (fun p => Known b.dmOnly ids p.id) (st' r))
    (h : ∀ r, (st r).map (renew b (allParticles w.parts)) = (st' r).map (renew b (allParticles w.parts))) :
    iteration b w st = iteration b w st' := by
  obtain ⟨snap, ranges, eload, hload⟩ := placeParticles_ok hb hw
  obtain ⟨halos, ehalo, _⟩ := updateHalos_ok hb hw hload
  unfold iteration
  rw [eload, Outcome.bind_ok, Outcome.bind_ok, ehalo, Outcome.bind_ok, Outcome.bind_ok, updateSubs_ok hload st hn hk,
    updateSubs_ok hload st' hn' hk', funext h]

end HBT.MainLoop
