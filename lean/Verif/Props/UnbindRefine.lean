import Verif.Props.UnbindEnergy
/-!
# C76: unbinding with computed energies is unbinding with given energies

The theorems about `unbind` (C29 and others) hold for any energies. Here: for every run of `unbindBodies` there are energies with which `unbind` does the same.
-/
namespace HBT.Props
open HBT HBT.Model HBT.Spec HBT.UE
variable {K D : Type} [Field K] [LinearOrder K]

omit [Field K] [LinearOrder K] in
/-- A list whose entries from `n` on are those of `l`, with the same particles, is `l` with the energies set. -/
theorem set_energies {l l1 : List (PE K)} {n : Nat} (hpid : l1.map PE.pid = l.map PE.pid) (hdrop : l1.drop n = l.drop n) {g : Nat → K}
    (hg : ∀ e ∈ l1.take n, g e.pid = e.e) : setEnergies g n l = l1 := by
  have hlen : l1.length = l.length := by simpa using congrArg List.length hpid
  unfold setEnergies
  apply List.ext_getElem (by simp [hlen])
  intro i h1 h2
  rw [List.getElem_mapIdx]
  have hi : i < l.length := by omega
  have hp : l1[i].pid = l[i].pid := by
    have := congrArg (fun l : List Nat => l[i]?) hpid
    simp only [List.getElem?_map, List.getElem?_eq_getElem hi, List.getElem?_eq_getElem h2, Option.map_some] at this
    exact Option.some.inj this
  split
  · rename_i hin
    have hmem : l1[i] ∈ l1.take n := by
      rw [List.mem_take_iff_getElem]
      exact ⟨i, by omega, rfl⟩
    rw [← hp, hg _ hmem]
  · rename_i hin
    have := congrArg (fun l : List (PE K) => l[i - n]?) hdrop
    simp only [List.getElem?_drop, show n + (i - n) = i by omega, List.getElem?_eq_getElem hi, List.getElem?_eq_getElem h2] at this
    exact (Option.some.inj this).symm

omit [Field K] [LinearOrder K] in
/-- The energies of a list whose particles are all different are a function of the particle. -/
theorem energy_function [Inhabited K] (l : List (PE K)) (h : (l.map PE.pid).Nodup) : ∃ g : Nat → K, ∀ e ∈ l, g e.pid = e.e := by
  induction l with
  | nil => exact ⟨fun _ => default, fun e he => by simp at he⟩
  | cons a l ih =>
    rw [List.map_cons, List.nodup_cons] at h
    obtain ⟨g, hg⟩ := ih h.2
    refine ⟨fun i => if i = a.pid then a.e else g i, fun e he => ?_⟩
    rcases List.mem_cons.1 he with rfl | he
    · simp
    · have hne : e.pid ≠ a.pid := fun h' => h.1 (by rw [← h']; exact List.mem_map_of_mem he)
      simp only [if_neg hne]
      exact hg e he

theorem refine_agrees {ph : Physics K} {sortE : List (PE K) → List (PE K)} {bs : List (Body K)} {k size : Nat} {ref : Frame K} {l l' : List (PE K)}
    (hnd : (l.map PE.pid).Nodup) (h : refineEnergies ph sortE bs k size ref l = .ok l') :
    ∃ inner : Nat → K, ∀ env : UnbindEnv K D K, env.sortE = sortE → env.inner = inner → refineOrder env size l = .ok l' := by
  unfold refineEnergies at h
  split at h
  · cases h
  · rename_i hsz
    obtain ⟨tree, _, h⟩ := bind_ok_inv h
    obtain ⟨pot, _, h⟩ := bind_ok_inv h
    obtain ⟨inner, hin, h⟩ := bind_ok_inv h
    obtain ⟨h1, h2, h3, _⟩ := updateFirst_facts hin
    have hlen : inner.length = (l.take size).length := updateFirst_length hin
    have : Inhabited K := ⟨0⟩
    obtain ⟨g, hg⟩ := energy_function inner (by rw [h2, List.map_take]; exact hnd.sublist (List.take_sublist _ _))
    refine ⟨g, fun env hs hi => ?_⟩
    unfold refineOrder
    rw [if_neg hsz, hs, hi]
    have e : (l.take size).mapIdx (fun i x => (⟨i, g x.pid⟩ : PE K)) = inner.mapIdx (fun i x => ⟨i, x.e⟩) := by
      apply List.ext_getElem (by simp [hlen])
      intro i a1 a2
      rw [List.getElem_mapIdx, List.getElem_mapIdx]
      have b1 : i < (l.take size).length := by simpa using a1
      have b2 : i < inner.length := by simpa using a2
      have hp : inner[i].pid = (l.take size)[i].pid := by
        have := congrArg (fun l : List Nat => l[i]?) h2
        simp only [List.getElem?_map, List.getElem?_eq_getElem b1, List.getElem?_eq_getElem b2, Option.map_some] at this
        exact Option.some.inj this
      rw [← hp, hg _ (List.getElem_mem b2)]
    rw [e]
    exact h

/-- Every run of the loop with computed energies is a run of the loop with given ones. -/
theorem loop_agrees {cfg : UnbindConfig} {ph : Physics K} {sortE : List (PE K) → List (PE K)} (hs : ∀ l, (sortE l).Perm l) {bs : List (Body K)} :
    ∀ (fuel k : Nat) (corr : Option (Frame K)) (ref : Frame K) (l : List (PE K)) (nlast nbound : Nat) (tr : List (Pass K))
      (res : Option (List (PE K) × Nat × Frame K)),
      unbindPasses cfg ph sortE bs fuel k corr ref l nlast nbound = .ok (tr, res) → (l.map PE.pid).Nodup →
      ∃ (energy : Nat → Nat → K) (inner : Nat → K), ∀ env : UnbindEnv K D K, env.sortE = sortE → env.inner = inner →
        (∀ j, k ≤ j → env.energy j = energy j) → unbindLoop cfg env fuel k l nbound = .ok (res.map (fun r => (r.1, r.2.1))) := by
  intro fuel
  induction fuel with
  | zero => intro k corr ref l nlast nbound tr res h; cases h
  | succ fuel ih =>
    intro k corr ref l nlast nbound tr res h hnd
    obtain ⟨l1, r1, L, nb, st⟩ := step_of h
    obtain ⟨hnl, hpid, hdrop, hlen⟩ := st.shape
    have hL := reordered hs (by omega) st.part
    rw [← st.def_] at hL
    obtain ⟨hle, hr1, hLl, hLt, hLp, hLd, hparts, hbound, hunbound⟩ := hL
    have : Inhabited K := ⟨0⟩
    obtain ⟨g, hg⟩ := energy_function l1 (by rw [hpid]; exact hnd)
    have hset : setEnergies g nbound l = l1 := set_energies hpid hdrop (fun e he => hg e (List.mem_of_mem_take he))
    have hpermL : L.Perm l1 := by
      rw [← List.take_append_drop nbound L, hLd]
      conv_rhs => rw [← List.take_append_drop nbound l1]
      exact hLp.append_right _
    have hndL : (L.map PE.pid).Nodup := by
      rw [(hpermL.map PE.pid).nodup_iff, hpid]
      exact hnd
    rcases st.next with ⟨hfew, e, hres⟩ | ⟨hmany, hconv, e, l', hres, hl'⟩ | ⟨hmany, hconv, tr', e, hrun⟩
    · refine ⟨fun _ => g, fun _ => 0, fun env _ _ hen => ?_⟩
      rw [unbindLoop, hen k le_rfl, hset, st.part, hres]
      simp [hfew]
    · have hnd' : ((sortE (L.take nb) ++ L.drop nb).map PE.pid).Nodup := by
        have hp : (sortE (L.take nb) ++ L.drop nb).Perm L := by
          conv_rhs => rw [← List.take_append_drop nb L]
          exact (hs _).append_right _
        rw [(hp.map PE.pid).nodup_iff]
        exact hndL
      have hfin : ∃ inner : Nat → K, ∀ env : UnbindEnv K D K, env.sortE = sortE → env.inner = inner →
          (if 0 < cfg.maxSample ∧ cfg.refine ∧ cfg.maxSample < nb then refineOrder env cfg.maxSample (sortE (L.take nb) ++ L.drop nb)
            else .ok (sortE (L.take nb) ++ L.drop nb)) = .ok l' := by
        split at hl'
        · rename_i hr
          obtain ⟨inner, hi⟩ := refine_agrees (D := D) hnd' hl'
          exact ⟨inner, fun env h1 h2 => by rw [if_pos hr]; exact hi env h1 h2⟩
        · rename_i hr
          exact ⟨fun _ => 0, fun env _ _ => by rw [if_neg hr]; exact hl'⟩
      obtain ⟨inner, hfin⟩ := hfin
      refine ⟨fun _ => g, inner, fun env hs' hi hen => ?_⟩
      have hf := hfin env hs' hi
      rw [unbindLoop, hen k le_rfl, hset, st.part, hres, hs']
      simp only [Outcome.bind_ok, if_neg hmany, if_pos hconv]
      rw [← st.def_]
      split at hf
      · rename_i hr
        rw [if_pos hr, hf]
        rfl
      · rename_i hr
        rw [if_neg hr]
        injection hf with hf
        rw [hf]
        rfl
    · obtain ⟨energy, inner, hrest⟩ := ih _ _ _ _ _ _ _ _ hrun hndL
      refine ⟨fun j => if j = k then g else energy j, inner, fun env hs' hi hen => ?_⟩
      have hk := hen k le_rfl
      simp only [if_true] at hk
      rw [unbindLoop, hk, hset, st.part, hs']
      simp only [Outcome.bind_ok, if_neg hmany, if_neg hconv]
      rw [← st.def_]
      refine hrest env hs' hi (fun j hj => ?_)
      have := hen j (by omega)
      simp only [if_neg (show ¬ j = k by omega)] at this
      exact this

/-- C76: for every run of unbinding with computed energies there are energies with which `unbind` gives the same subhalo. -/
theorem C76_instance (cfg : UnbindConfig) (ph : Physics K) (sortE : List (PE K) → List (PE K)) (hs : ∀ l, (sortE l).Perm l)
    (shuffle : List (Particle D) → List (Particle D)) (junk : Nat → K) (way : Nat) (body : D → Body K) (fuel : Nat) (snap : Int) (ref : Frame K)
    (s s' : Sub K D) (f : Option (Frame K)) (tr : List (Pass K)) (h : unbindBodies cfg ph sortE shuffle junk way body fuel snap ref s = .ok (s', f, tr)) :
    ∃ (energy : Nat → Nat → K) (inner : Nat → K),
      unbind cfg ⟨energy, inner, junk, shuffle, sortE, fun d => (body d).mass, way⟩ fuel snap s = .ok s' := by
  unfold unbindBodies at h
  unfold unbind
  simp only at h ⊢
  generalize (if s.particles.length < cfg.minNum then die snap s else s) = u at h ⊢
  rcases hu : u.particles with _ | ⟨p0, _ | ⟨p1, ps⟩⟩
  · rw [hu] at h
    cases h
    exact ⟨fun _ _ => 0, fun _ => 0, rfl⟩
  · rw [hu] at h
    cases h
    exact ⟨fun _ _ => 0, fun _ => 0, rfl⟩
  · rw [hu] at h
    simp only at h ⊢
    obtain ⟨⟨tr', res⟩, hrun, h⟩ := bind_ok_inv h
    obtain ⟨energy, inner, hloop⟩ := loop_agrees (D := D) hs _ _ _ _ _ _ _ _ _ hrun (by
      rw [List.map_map]
      simpa [Function.comp_def] using List.nodup_range)
    refine ⟨energy, inner, ?_⟩
    rw [hloop _ rfl rfl (fun _ _ => rfl)]
    cases res with
    | none =>
      simp only at h
      obtain ⟨ps', hps, h⟩ := bind_ok_inv h
      cases h
      simp only [Outcome.bind_ok, Option.map_none]
      rw [hps]
      rfl
    | some r =>
      obtain ⟨l, nb, g⟩ := r
      simp only at h
      obtain ⟨ps', hps, h⟩ := bind_ok_inv h
      cases h
      simp only [Outcome.bind_ok, Option.map_some]
      rw [hps]
      rfl

end HBT.Props
