import Verif.Model.Inclusive
import Verif.Spec.Inclusive
import Verif.Lemmas.Update
import Verif.Lemmas.Origin
import Verif.Props.Purge
/-!
# `UpdateTracks` with inclusive masses

The order of particles does not matter to the steps after `PurgeMostBoundParticles`.
-/
namespace HBT
open HBT.Model HBT.Spec HBT.Props
variable {K D : Type}

/-- The subhaloes with other particles. -/
def swapAll (subs : List (Sub K D)) (ps : List (List (Particle D))) : List (Sub K D) := List.zipWith Sub.withParticles subs ps

theorem swapAll_get {subs : List (Sub K D)} {ps : List (List (Particle D))} (h : ps.length = subs.length) {i : Nat} {s : Sub K D}
    (hs : subs[i]? = some s) : ∃ p, ps[i]? = some p ∧ (swapAll subs ps)[i]? = some (s.withParticles p) := by
  have hi := (List.getElem?_eq_some_iff.1 hs).1
  refine ⟨_, List.getElem?_eq_getElem (show i < ps.length by omega), ?_⟩
  unfold swapAll
  rw [List.getElem?_zipWith, hs, List.getElem?_eq_getElem (show i < ps.length by omega)]

theorem swapAll_length {subs : List (Sub K D)} {ps : List (List (Particle D))} (h : ps.length = subs.length) :
    (swapAll subs ps).length = subs.length := by
  unfold swapAll
  rw [List.length_zipWith]
  omega

theorem updateTrack_swap [LE K] [DecidableLE K] (snap : Int) (s : Sub K D) (p : List (Particle D)) :
    updateTrack snap (s.withParticles p) = (updateTrack snap s).withParticles p := by
  by_cases h0 : s.trackId = nullTrack
  · rw [updateTrack, updateTrack, if_pos h0, if_pos (show (s.withParticles p).trackId = nullTrack from h0)]
  · rw [updateTrack, updateTrack, if_neg h0, if_neg (show (s.withParticles p).trackId ≠ nullTrack from h0)]
    by_cases hr : s.rank = 0 <;> by_cases hm : s.lastMaxMass ≤ s.mbound <;> simp [Sub.withParticles, hr, hm]

theorem refreshAll_swap [LE K] [DecidableLE K] (snap : Int) (haloIds : List Int) : ∀ (subs out : List (Sub K D))
    (ps : List (List (Particle D))), ps.length = subs.length → refreshAll snap haloIds subs = .ok out →
    refreshAll snap haloIds (swapAll subs ps) = .ok (swapAll out ps) ∧ out.length = subs.length := by
  intro subs
  induction subs with
  | nil =>
    intro out ps _ h
    rw [refreshAll] at h
    cases h
    cases ps <;> exact ⟨rfl, rfl⟩
  | cons s subs ih =>
    intro out ps hl h
    obtain ⟨p, ps, rfl⟩ : ∃ p q, ps = p :: q := by
      cases ps with
      | nil => simp at hl
      | cons p q => exact ⟨p, q, rfl⟩
    rw [refreshAll] at h
    obtain ⟨s', e1, h⟩ := bind_eq_ok h
    obtain ⟨subs', e2, h⟩ := bind_eq_ok h
    cases h
    obtain ⟨i1, i2⟩ := ih subs' ps (by simpa using hl) e2
    refine ⟨?_, by simp [i2]⟩
    have e1' : restoreHost haloIds (updateTrack snap (s.withParticles p)) = .ok (s'.withParticles p) := by
      rw [updateTrack_swap]
      generalize updateTrack snap s = t at e1
      unfold restoreHost at e1 ⊢
      simp only [Sub.withParticles_hostHaloId]
      split_ifs at e1 ⊢ with hc
      · cases e1; rfl
      · obtain ⟨h, e, e1⟩ := bind_eq_ok e1
        cases e1
        rw [e]
        rfl
    show refreshAll snap haloIds (s.withParticles p :: swapAll subs ps) = .ok (s'.withParticles p :: swapAll subs' ps)
    rw [refreshAll, e1', Outcome.bind_ok, i1, Outcome.bind_ok]

theorem getI_swap {subs : List (Sub K D)} {ps : List (List (Particle D))} (hl : ps.length = subs.length) {k : Int} {s : Sub K D}
    (h : Outcome.getI subs k = .ok s) : ∃ p, Outcome.getI (swapAll subs ps) k = .ok (s.withParticles p) := by
  unfold Outcome.getI at h ⊢
  split_ifs at h ⊢ with hk
  unfold Outcome.get at h ⊢
  cases hg : subs[k.toNat]? with
  | none => rw [hg] at h; cases h
  | some t =>
    rw [hg] at h
    cases h
    obtain ⟨p, _, e⟩ := swapAll_get hl hg
    rw [e]
    exact ⟨p, rfl⟩

theorem globalIds_swap {subs : List (Sub K D)} {ps : List (List (Particle D))} (hl : ps.length = subs.length) : ∀ (ks ts : List Int),
    globalIds subs ks = .ok ts → globalIds (swapAll subs ps) ks = .ok ts := by
  intro ks
  induction ks with
  | nil => intro ts h; exact h
  | cons k ks ih =>
    intro ts h
    rw [globalIds] at h ⊢
    obtain ⟨s, e1, h⟩ := bind_eq_ok h
    obtain ⟨ts', e2, h⟩ := bind_eq_ok h
    obtain ⟨p, e⟩ := getI_swap hl e1
    rw [e, Outcome.bind_ok, ih _ e2, Outcome.bind_ok]
    exact h

theorem globalizeFrom_swap (snap : Int) {all : List (Sub K D)} {qs : List (List (Particle D))} (hq : qs.length = all.length) :
    ∀ (subs out : List (Sub K D)) (ps : List (List (Particle D))), ps.length = subs.length → globalizeFrom snap all subs = .ok out →
    globalizeFrom snap (swapAll all qs) (swapAll subs ps) = .ok (swapAll out ps) := by
  intro subs
  induction subs with
  | nil =>
    intro out ps _ h
    rw [globalizeFrom] at h
    cases h
    cases ps <;> rfl
  | cons s subs ih =>
    intro out ps hl h
    obtain ⟨p, ps, rfl⟩ : ∃ p q, ps = p :: q := by
      cases ps with
      | nil => simp at hl
      | cons p q => exact ⟨p, q, rfl⟩
    rw [globalizeFrom] at h
    obtain ⟨s', e1, h⟩ := bind_eq_ok h
    obtain ⟨subs', e2, h⟩ := bind_eq_ok h
    cases h
    have i1 := ih subs' ps (by simpa using hl) e2
    have e1' : globalizeOne snap (swapAll all qs) (s.withParticles p) = .ok (s'.withParticles p) := by
      unfold globalizeOne at e1 ⊢
      simp only [Sub.withParticles_nested, Sub.withParticles_snapSink, Sub.withParticles_sinkTrackId]
      obtain ⟨ts, e, e1⟩ := bind_eq_ok e1
      rw [globalIds_swap hq _ _ e, Outcome.bind_ok]
      split_ifs at e1 ⊢ with hc
      · obtain ⟨t, e', e1⟩ := bind_eq_ok e1
        cases e1
        obtain ⟨q, e''⟩ := getI_swap hq e'
        rw [e'', Outcome.bind_ok]
        rfl
      · cases e1; rfl
    show globalizeFrom snap (swapAll all qs) (s.withParticles p :: swapAll subs ps) = .ok (s'.withParticles p :: swapAll subs' ps)
    rw [globalizeFrom, e1', Outcome.bind_ok, i1, Outcome.bind_ok]

/-- The steps after `PurgeMostBoundParticles` do not look at particles. -/
theorem finish_swap [LE K] [DecidableLE K] (snap : Int) (haloIds : List Int) {subs out : List (Sub K D)}
    {ps : List (List (Particle D))} (hl : ps.length = subs.length) (h : (refreshAll snap haloIds subs >>= globalize snap) = .ok out) :
    (refreshAll snap haloIds (swapAll subs ps) >>= globalize snap) = .ok (swapAll out ps) := by
  obtain ⟨m, e1, e2⟩ := bind_eq_ok h
  obtain ⟨a1, a2⟩ := refreshAll_swap snap haloIds subs m ps hl e1
  rw [a1]
  exact globalizeFrom_swap snap (by omega) m out ps (by omega) e2

theorem swapAll_of {subs subs' : List (Sub K D)} (hl : subs'.length = subs.length)
    (h : ∀ (i : Nat) (s s' : Sub K D), subs[i]? = some s → subs'[i]? = some s' → s' = s.withParticles s'.particles) :
    subs' = swapAll subs (subs'.map Sub.particles) := by
  apply List.ext_getElem?
  intro i
  by_cases hi : i < subs.length
  · have h1 := List.getElem?_eq_getElem hi
    have h2 := List.getElem?_eq_getElem (show i < subs'.length by omega)
    obtain ⟨p, e1, e2⟩ := swapAll_get (ps := subs'.map Sub.particles) (by simp [hl]) h1
    rw [List.getElem?_map, h2, Option.map_some] at e1
    cases e1
    rw [e2, h2]
    exact congrArg some (h i _ _ h1 h2)
  · rw [List.getElem?_eq_none (by omega), List.getElem?_eq_none (by rw [swapAll_length (by simp [hl])]; omega)]

/-- `UpdateTracks` on one process with inclusive masses: the result of the other build, with other particles at the front. -/
theorem updateLocalInclusive_ok [LE K] [DecidableLE K] (coord : Sub K D → D) {sort : List (Sub K D) → List Nat → List Nat} {snap : Int}
    {haloIds : List Int} (hn : haloIds.Nodup) (hn' : (-1 : Int) ∉ haloIds) {heads : List (List Nat)} {subs out : List (Sub K D)}
    (h : UpdateSteps sort snap haloIds heads subs out) :
    ∃ out', updateLocalInclusive coord sort snap haloIds heads subs = .ok out' ∧ Fronted out out' := by
  obtain ⟨t, all, gs, field, s1, s2, s3, et, ea, eg, e1, e2, e3, ef, efin, hlen, hperm, hrank, hhost, hfin⟩ := h
  have hlo : out.length = s3.length := hfin.length_eq.symm
  have hperm' : ((field :: gs).flatten).Perm (List.range s3.length) := by
    rw [List.flatten_cons]
    exact List.perm_append_comm.trans hperm
  obtain ⟨st, ep, l1, _, _, hin⟩ := C66_purge (field :: gs) (hperm'.nodup_iff.2 List.nodup_range) (s3, s3.map coord)
    (fun c hc => List.mem_range.1 (hperm'.mem_iff.1 hc)) (by simp)
  have heach : ∀ (i : Nat) (b : Sub K D), s3[i]? = some b → ∃ g ∈ field :: gs, ∃ k : Nat, g[k]? = some i ∧ ∃ b' d', st.1[i]? = some b' ∧
      MemberPurged (laterIds s3 g k) b (coord b) b' d' ∧ b' = b.withParticles b'.particles ∧ b'.particles.Perm b.particles := by
    intro i b hb
    have hi := (List.getElem?_eq_some_iff.1 hb).1
    obtain ⟨g, hg, hig⟩ := List.mem_flatten.1 (hperm'.mem_iff.2 (List.mem_range.2 hi))
    obtain ⟨k, hk⟩ := List.getElem?_of_mem hig
    obtain ⟨b', d', hb', _, hm⟩ := hin g hg k i b (coord b) hk hb (by rw [List.getElem?_map, hb]; rfl)
    refine ⟨g, hg, k, hk, b', d', hb', hm, ?_⟩
    by_cases hr : b.nbound ≤ 1
    · obtain ⟨rfl, _⟩ := hm.1 hr
      exact ⟨rfl, List.Perm.refl _⟩
    · obtain ⟨p1, p2⟩ := purged_perm (hm.2 (by omega))
      exact ⟨p2, p1⟩
  have hsw : st.1 = swapAll s3 (st.1.map Sub.particles) := by
    refine swapAll_of l1 ?_
    intro i s s' hs hs'
    obtain ⟨_, _, _, _, b', _, hb', _, e, _⟩ := heach i s hs
    rw [hs'] at hb'
    cases hb'
    exact e
  have hlp : (st.1.map Sub.particles).length = s3.length := by simp [l1]
  have hf := finish_swap snap haloIds hlp efin
  rw [← hsw] at hf
  refine ⟨swapAll out (st.1.map Sub.particles), ?_, swapAll_length (by rw [hlp, hlo]), ?_⟩
  · rw [updateLocalInclusive, et, Outcome.bind_ok, ea, Outcome.bind_ok]
    simp only
    rw [eg, Outcome.bind_ok, e1, Outcome.bind_ok, e2, Outcome.bind_ok, e3, Outcome.bind_ok, ef, Outcome.bind_ok, ep, Outcome.bind_ok]
    exact hf
  · -- what is the same in `s3` and in the result
    have hsame : ∀ (i : Nat) (b o : Sub K D), s3[i]? = some b → out[i]? = some o → o.nbound = b.nbound ∧ o.particles = b.particles ∧
        o.rank = b.rank ∧ Located haloIds b o := by
      intro i b o hb ho
      obtain ⟨o', ho', f⟩ := forall₂_get hfin i b hb
      rw [ho] at ho'
      cases ho'
      have hk : (updateTrack snap b).nbound = b.nbound ∧ (updateTrack snap b).particles = b.particles := by
        unfold updateTrack
        dsimp only
        split_ifs <;> exact ⟨rfl, rfl⟩
      refine ⟨?_, ?_, f.rank, f.host⟩
      · rw [f.rest]; exact hk.1
      · rw [f.rest]; exact hk.2
    intro i o ho
    have hi : i < s3.length := by rw [← hlo]; exact (List.getElem?_eq_some_iff.1 ho).1
    have hb := List.getElem?_eq_getElem hi
    generalize s3[i] = b at hb
    obtain ⟨g, hg, k, hk, b', d', hb', hm, hbe, hbp⟩ := heach i b hb
    obtain ⟨p, hp, hres⟩ := swapAll_get (ps := st.1.map Sub.particles) (by omega) ho
    rw [List.getElem?_map, hb', Option.map_some] at hp
    cases hp
    obtain ⟨q1, q2, q3, q4⟩ := hsame i b o hb ho
    refine ⟨o.withParticles b'.particles, hres, rfl, by simpa [q2] using hbp, ?_, ?_⟩
    · intro hnr
      unfold Resolved at hnr
      rw [q1] at hnr
      obtain ⟨rfl, _⟩ := hm.1 (by omega)
      rw [← q2]
      rfl
    · intro hr hh
      unfold Resolved at hr
      rw [q1] at hr
      have hpg := hm.2 hr
      have hbh : b.hostHaloId ≠ -1 := by
        rcases q4 with ⟨_, e⟩ | ⟨h, e, _⟩
        · exact absurd e hh
        · omega
      obtain ⟨h, g', j, hbh', hg', hj⟩ := hhost i b hb hbh
      -- the same group
      have hgg : g = g' ∧ k = j := by
        have hnd := hperm'.nodup_iff.2 (List.nodup_range (n := s3.length))
        have hg'm : g' ∈ field :: gs := List.mem_cons_of_mem _ (List.mem_of_getElem? hg')
        have hgeq : g = g' := by
          by_contra hne
          rw [List.nodup_flatten] at hnd
          have hdis := hnd.2
          obtain ⟨x, hx⟩ := List.getElem?_of_mem hg
          obtain ⟨y, hy⟩ := List.getElem?_of_mem hg'm
          have hxy : x ≠ y := by
            rintro rfl
            rw [hx] at hy
            exact hne (Option.some.inj hy)
          have hxl := (List.getElem?_eq_some_iff.1 hx).1
          have hyl := (List.getElem?_eq_some_iff.1 hy).1
          have ex := (List.getElem?_eq_some_iff.1 hx).2
          have ey := (List.getElem?_eq_some_iff.1 hy).2
          rw [List.pairwise_iff_getElem] at hdis
          have m1 := List.mem_of_getElem? hk
          have m2 := List.mem_of_getElem? hj
          rcases Nat.lt_or_gt_of_ne hxy with hlt | hlt
          · have := hdis x y hxl hyl hlt
            rw [ex, ey] at this
            exact this m1 m2
          · have := hdis y x hyl hxl hlt
            rw [ex, ey] at this
            exact this m2 m1
        subst hgeq
        rw [List.nodup_flatten] at hnd
        exact ⟨rfl, (List.getElem?_inj (List.getElem?_eq_some_iff.1 hk).1 (hnd.1 _ hg)).1 (hk.trans hj.symm)⟩
      obtain ⟨rfl, rfl⟩ := hgg
      obtain ⟨_, hb2, _, hbr⟩ := hrank h g k i hg' hk
      rw [hb] at hb2
      cases hb2
      refine ⟨laterIds s3 g k, ?_, ?_⟩
      · intro x
        have : laterIds s3 g k = sharedIds s3 (g.drop (k + 1)) := rfl
        rw [this, mem_sharedIds]
        constructor
        · rintro ⟨c, hc, t, ht, htn, y, hy, rfl⟩
          obtain ⟨m, hmc⟩ := List.getElem?_of_mem hc
          rw [List.getElem?_drop] at hmc
          obtain ⟨_, ht', th, tr⟩ := hrank h g _ c hg' hmc
          rw [ht] at ht'
          cases ht'
          have hcl : c < out.length := by rw [hlo]; exact (List.getElem?_eq_some_iff.1 ht).1
          obtain ⟨r1, r2, r3, r4⟩ := hsame c t _ ht (List.getElem?_eq_getElem hcl)
          refine ⟨out[c], List.getElem_mem hcl, ?_, ?_, ?_, y, by rw [r2]; exact hy, rfl⟩
          · rcases q4 with ⟨e, _⟩ | ⟨h1, e, eh⟩
            · exact absurd e hbh
            · rcases r4 with ⟨e', _⟩ | ⟨h2, e', eh'⟩
              · omega
              · have : h1 = h2 := by omega
                subst this
                rw [eh] at eh'
                exact (Option.some.inj eh').symm
          · rw [r3, q3, tr, hbr]; push_cast; omega
          · unfold Resolved; rw [r1]; exact htn
        · rintro ⟨o', ho', hoh, hor, hores, y, hy, rfl⟩
          obtain ⟨c, hc⟩ := List.getElem?_of_mem ho'
          have hcl : c < s3.length := by rw [← hlo]; exact (List.getElem?_eq_some_iff.1 hc).1
          obtain ⟨r1, r2, r3, r4⟩ := hsame c _ o' (List.getElem?_eq_getElem hcl) hc
          have hhh : s3[c].hostHaloId = b.hostHaloId := by
            rcases q4 with ⟨e, _⟩ | ⟨h1, e, eh⟩
            · exact absurd e hbh
            · rcases r4 with ⟨e', eo⟩ | ⟨h2, e', eh'⟩
              · rw [← hoh, eo] at eh
                exact absurd (List.mem_of_getElem? eh) hn'
              · rw [hoh] at eh'
                have := (List.getElem?_inj (List.getElem?_eq_some_iff.1 eh).1 hn).1 (eh.trans eh'.symm)
                rw [e, e', this]
          obtain ⟨h2, g2, j2, hch, hg2, hj2⟩ := hhost c _ (List.getElem?_eq_getElem hcl) (by rw [hhh]; exact hbh)
          have : h2 = h := by omega
          subst this
          rw [hg'] at hg2
          cases hg2
          obtain ⟨_, hc2, _, hcr⟩ := hrank h2 g j2 c hg' hj2
          rw [List.getElem?_eq_getElem hcl] at hc2
          cases hc2
          have hkj : k < j2 := by
            rw [q3, r3, hbr, hcr] at hor
            omega
          refine ⟨c, ?_, _, List.getElem?_eq_getElem hcl, by rw [← r1]; exact hores, y, by rw [← r2]; exact hy, rfl⟩
          refine List.mem_of_getElem? (i := j2 - (k + 1)) ?_
          rw [List.getElem?_drop, ← hj2]
          congr 1
          omega
      · rcases hpg with ⟨rfl, _, hno⟩ | ⟨j, y, ps, hfo, hex, rfl, _⟩
        · left
          refine ⟨?_, by rw [q2]; exact hno⟩
          rw [← q2]
          rfl
        · right
          exact ⟨j, by rw [q2]; exact hfo, by rw [q2]; exact hex⟩

end HBT
