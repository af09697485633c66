import Verif.Props.StoredEnergies
import Verif.Props.Threads
/-!
# C79 in runs: the energies written for each snapshot
-/
namespace HBT.Props
open HBT HBT.Model HBT.Spec
variable {K D E : Type}

theorem compactStored_spec : ∀ (n i new : Nat) (arr : List (Sub K D × List E)), new ≤ i → i + n = arr.length →
    ∃ arr', compactStored n i new arr = .ok (new + ((arr.drop i).filter (fun s => decide (1 < s.1.nbound))).length, arr') ∧
      arr'.take (new + ((arr.drop i).filter (fun s => decide (1 < s.1.nbound))).length) = arr.take new ++ (arr.drop i).filter (fun s => decide (1 < s.1.nbound)) := by
  intro n
  induction n with
  | zero =>
    intro i new arr _ h2
    exact ⟨arr, by simp [compactStored, List.drop_of_length_le (show arr.length ≤ i by omega)]⟩
  | succ n ih =>
    intro i new arr h1 h2
    have hi : i < arr.length := by omega
    rw [List.drop_eq_getElem_cons hi, compactStored, Outcome.get_of_lt hi, Outcome.bind_ok]
    split
    · rename_i hp
      rw [List.filter_cons_of_pos (by simpa using hp)]
      have hst : moveStored i new arr[i] arr = .ok (arr.set new arr[i]) := by
        unfold moveStored
        split
        · exact Outcome.set_of_lt (by omega)
        · rename_i h
          have : i = new := by omega
          subst this
          simp
      rw [hst, Outcome.bind_ok]
      obtain ⟨arr', e, h3⟩ := ih (i+1) (new+1) (arr.set new arr[i]) (by omega) (by simp; omega)
      rw [List.drop_set_of_lt (by omega)] at e h3
      refine ⟨arr', by rw [e]; simp; omega, ?_⟩
      rw [List.length_cons, show ∀ m : Nat, new + (m + 1) = new + 1 + m by intro m; omega, h3, List.take_add_one]
      simp [List.take_set_of_le, show new < arr.length by omega]
    · rename_i hp
      rw [List.filter_cons_of_neg (by simpa using hp)]
      exact ih (i+1) new arr (by omega) (by omega)

theorem registerStored_ok (st : List (Sub K D × List E)) (nBirth : Nat) (h : nBirth ≤ st.length) :
    registerStored st nBirth = .ok (st.take (st.length - nBirth) ++ (st.drop (st.length - nBirth)).filter (fun s => decide (1 < s.1.nbound))) := by
  obtain ⟨arr', e, h2⟩ := compactStored_spec nBirth (st.length - nBirth) (st.length - nBirth) st (le_refl _) (by omega)
  rw [registerStored, if_pos h]
  simp only
  rw [e, Outcome.bind_ok]
  simp only
  rw [h2]

variable [LinearOrder K] [MassSum K] [LinearOrder E] [Zero E] {par : Params K D} {tr : List (Σ P, Snapshot K D E P)} {P : Nat} {d : Snapshot K D E P}

/-- C79. In any run the energies beside each subhalo at the end of a snapshot are those of its last unbinding in this snapshot: of its particles in `RefineParticles`, or, for one into
which others merged, of its particles in `MergeSubhalos` (of its most bound one, if it merged itself); whatever energies `old` were left from before. The bound particles of the subhalo
are the first ones of that unbinding, in its order. -/
theorem C79_run (hpar : par.Ok) (hc : par.consumed = false) (h : Run par (⟨P, d⟩ :: tr)) (r : Fin P) (old : List (List E)) (hold : old.length = (d.masked r).length) :
    ∃ st1 st2 st3, refineStored par.cfg (d.env r) d.snap (d.masked r).length (d.hostOrder r) (d.lone r) (d.groups r) (d.nested r).2 ((d.masked r).zip old) = .ok st1 ∧
      st1.map Prod.fst = d.refined r ∧
      mergeStored par.cfg (d.env' r) par.mass par.merging (d.sunk r) d.snap ((d.refined r).length + 1) (d.mergeOrder r) (d.each r) (d.groups r) (d.nested r).2 st1 = .ok st2 ∧
      st2.map Prod.fst = d.merged r ∧ registerStored st2 (d.new r).length = .ok st3 ∧ st3.length = (d.out r).length ∧
      ∀ (j : Nat) (s : Sub K D), (d.out r)[j]? = some s → ∃ w en, st3[j]? = some (w, en) ∧ w.nbound = s.nbound ∧ w.particles = s.particles ∧
        ∃ i u v, st2[i]? = some (w, en) ∧ (d.masked r)[i]? = some u ∧ (d.refined r)[i]? = some v ∧
          (FromUnbinding par.cfg (d.env r i) d.snap u.particles s en ∨ FromUnbinding par.cfg (d.env' r i) d.snap v.particles s en ∨
            FromUnbinding par.cfg (d.env' r i) d.snap (v.particles.take 1) s en) := by
  obtain ⟨_, hl, hn, comp⟩ := run_layouts hpar h r
  obtain ⟨hf, ok, ih⟩ := run_facts hpar h
  have hsnap : d.snap ≠ nullSnap := by
    have := ok.snap
    unfold nullSnap
    omega
  set st0 := (d.masked r).zip old with hst0
  have h0 : st0.map Prod.fst = d.masked r := List.map_fst_zip (by omega)
  have h0l : st0.length = (d.masked r).length := by rw [← List.length_map (f := Prod.fst), h0]
  have hsingle := orphans_single hpar.min ok hf ih.tidy hc r
  obtain ⟨st1, e1, e1', hl1, hq1⟩ := C79_refine (env := d.env r) ⟨fun i => (ok.env r i).1, hpar.prec, hpar.min⟩ hpar.relax d.snap (st := st0) (by rw [h0]; exact hl)
    (by rw [h0]; exact hsingle) (fuel := (d.masked r).length) (by omega) (ok.hostOrder r) (lone := d.lone r) (by rw [h0l, hn, Nat.add_sub_cancel_left]; exact ok.lone r)
  rw [h0, comp.refine_ r] at e1'
  have hfst1 : st1.map Prod.fst = d.refined r := (Outcome.ok.inj e1').symm
  have hlen : st1.length = (d.old r).length + (d.new r).length := by omega
  have hback : ∀ (i : Nat) (s : Sub K D) (en : List E), st1[i]? = some (s, en) → ∃ u, (d.masked r)[i]? = some u ∧ FromUnbinding par.cfg (d.env r i) d.snap u.particles s en := by
    intro i s en hs
    have hi : i < st0.length := by rw [← hl1]; exact (List.getElem?_eq_some_iff.1 hs).1
    obtain ⟨s', en', q1, q2⟩ := hq1 i st0[i].1 st0[i].2 (List.getElem?_eq_getElem hi)
    rw [hs] at q1
    cases q1
    refine ⟨_, ?_, q2⟩
    rw [← h0]
    exact fst_some (en := st0[i].2) (List.getElem?_eq_getElem hi)
  obtain ⟨st2, e2, e2', hl2, hq2⟩ := C79_merged (env := d.env' r) (env1 := d.env r) (own := fun i => srcAt (d.masked r) i) ⟨fun i => (ok.env' r i).1, hpar.prec, hpar.min⟩
    hpar.relax par.mass (fun i => (ok.env' r i).2) par.merging (d.sunk r) hsnap (st := st1) (by rw [hfst1]; exact hf.layout r) (by
      rw [hfst1]
      intro s hs
      obtain ⟨i, hi⟩ := List.getElem?_of_mem hs
      have hil : i < (d.masked r).length := by rw [← (hf.refined_ r).length]; exact (List.getElem?_eq_some_iff.1 hi).1
      obtain ⟨u, hu, hr⟩ := (hf.refined_ r).each i _ (List.getElem?_eq_getElem hil)
      rw [hi] at hu
      cases hu
      exact refinedSub_settled hpar.min hsnap hr) (by
      intro i s en hs
      obtain ⟨u, hu, hfu⟩ := hback i s en hs
      unfold srcAt
      rw [hu]
      exact hfu) (fuel := (d.refined r).length + 1) (by rw [← hfst1, List.length_map]; omega) (ok.mergeOrder r) (each := d.each r) (by rw [hlen]; exact ok.each r)
  rw [hfst1, comp.merge r] at e2'
  have hfst2 : st2.map Prod.fst = d.merged r := (Outcome.ok.inj e2').symm
  have hold2 : st2.length - (d.new r).length = (d.old r).length := by omega
  refine ⟨st1, st2, _, e1, hfst1, e2, hfst2, registerStored_ok st2 (d.new r).length (by omega), ?_⟩
  rw [hold2]
  set st3 := st2.take (d.old r).length ++ (st2.drop (d.old r).length).filter (fun s => decide (1 < s.1.nbound)) with hst3
  obtain ⟨N, _, hupd⟩ := hf.updated
  obtain ⟨reg, hreg, hren⟩ := hupd r
  have hshow : reg.map shown = st3.map (fun x => shown x.1) := by
    rw [hreg, ← hfst2, hst3, List.map_append, List.map_append, ← List.map_take, ← List.map_drop, List.map_map]
    congr 1
    unfold numbered resolved
    rw [List.filter_map]
    apply List.ext_getElem?
    intro k
    simp only [List.getElem?_map, List.getElem?_mapIdx, Function.comp_def, Option.map_map]
    cases ((st2.drop (d.old r).length).filter (fun s => decide (1 < s.1.nbound)))[k]? <;> rfl
  have hout : (d.out r).map shown = st3.map (fun x => shown x.1) := by
    rw [← hshow]
    apply List.ext_getElem?
    intro k
    rw [List.getElem?_map, List.getElem?_map]
    rcases Nat.lt_or_ge k reg.length with hk | hk
    · have hk2 : k < (d.out r).length := by rw [← hren.length_eq]; exact hk
      have hu := ((List.forall₂_iff_get.1 hren).2 k hk hk2).1
      simp only [List.get_eq_getElem] at hu
      rw [List.getElem?_eq_getElem hk, List.getElem?_eq_getElem hk2]
      simp only [Option.map_some]
      unfold Updated at hu
      rw [hu]
      unfold shown updateTrack
      simp only
      split_ifs <;> rfl
    · have hk2 : (d.out r).length ≤ k := by rw [← hren.length_eq]; exact hk
      rw [List.getElem?_eq_none hk, List.getElem?_eq_none hk2]
  refine ⟨?_, fun j s hs => ?_⟩
  · have := congrArg List.length hout
    simpa using this.symm
  · have h3 := congrArg (fun l => l[j]?) hout
    simp only [List.getElem?_map, hs, Option.map_some] at h3
    cases hx : st3[j]? with
    | none =>
      rw [hx] at h3
      cases h3
    | some x =>
      obtain ⟨w, en⟩ := x
      rw [hx] at h3
      have h4 : shown s = shown w := Option.some.inj h3
      have hsn : s.nbound = w.nbound := congrArg Prod.fst h4
      have hsp : s.particles = w.particles := congrArg Prod.snd h4
      refine ⟨w, en, rfl, hsn.symm, hsp.symm, ?_⟩
      have hmem : (w, en) ∈ st2 := by
        have := List.mem_of_getElem? hx
        rw [hst3, List.mem_append] at this
        rcases this with h5 | h5
        · exact List.mem_of_mem_take h5
        · exact List.mem_of_mem_drop (List.mem_of_mem_filter h5)
      obtain ⟨i, hi⟩ := List.getElem?_of_mem hmem
      have hil : i < st1.length := by rw [← hl2]; exact (List.getElem?_eq_some_iff.1 hi).1
      obtain ⟨s', en', q1, q2⟩ := hq2 i st1[i].1 st1[i].2 (List.getElem?_eq_getElem hil)
      rw [hi] at q1
      cases q1
      obtain ⟨u, hu, _⟩ := hback i st1[i].1 st1[i].2 (List.getElem?_eq_getElem hil)
      have hv : (d.refined r)[i]? = some st1[i].1 := by
        rw [← hfst1]
        exact fst_some (en := st1[i].2) (List.getElem?_eq_getElem hil)
      have hsrc : srcAt (d.masked r) i = u.particles := by
        unfold srcAt
        rw [hu]
      refine ⟨i, u, _, hi, hu, hv, ?_⟩
      have hcon : ∀ {env : UnbindEnv K D E} {own : List (Particle D)}, FromUnbinding par.cfg env d.snap own w en → FromUnbinding par.cfg env d.snap own s en :=
        fun hh => hh.congr (le_of_eq hsn) (by rw [hsp])
      rcases q2 with ⟨_, q2⟩ | q2 | q2
      · rw [hsrc] at q2
        exact Or.inl (hcon q2)
      · exact Or.inr (Or.inl (hcon q2))
      · exact Or.inr (Or.inr (hcon q2))

/-- C79. So, whatever the run, the energies of all processes can be written, and what is written beside a resolved subhalo is, at each place, the energy of the particle at this place. -/
theorem C79_run_energy (hpar : par.Ok) (hc : par.consumed = false) (h : Run par (⟨P, d⟩ :: tr)) (r : Fin P) (old : List (List E)) (hold : old.length = (d.masked r).length) :
    ∃ st1 st2 st3, refineStored par.cfg (d.env r) d.snap (d.masked r).length (d.hostOrder r) (d.lone r) (d.groups r) (d.nested r).2 ((d.masked r).zip old) = .ok st1 ∧
      mergeStored par.cfg (d.env' r) par.mass par.merging (d.sunk r) d.snap ((d.refined r).length + 1) (d.mergeOrder r) (d.each r) (d.groups r) (d.nested r).2 st1 = .ok st2 ∧
      registerStored st2 (d.new r).length = .ok st3 ∧ st3.length = (d.out r).length ∧
      ∀ (j : Nat) (s : Sub K D) (en : List E), (d.out r)[j]? = some s → (st3.map Prod.snd)[j]? = some en → s.nbound ≤ en.length ∧
        (Resolved s → ∃ i own extra env last, (env = d.env r i ∨ env = d.env' r i) ∧ ((∃ u, (d.masked r)[i]? = some u ∧ own = u.particles) ∨
            ∃ v, (d.refined r)[i]? = some v ∧ (own = v.particles ∨ own = v.particles.take 1)) ∧
          ∀ k < s.nbound, ∃ a p, (unbindSource par.cfg env (own ++ extra))[a]? = some p ∧ s.particles[k]? = some p ∧ en[k]? = some (env.energy last a) ∧ env.energy last a ≤ 0) := by
  obtain ⟨_, ok, _⟩ := run_facts hpar h
  obtain ⟨st1, st2, st3, e1, _, e2, _, e3, hl, hq⟩ := C79_run hpar hc h r old hold
  refine ⟨st1, st2, st3, e1, e2, e3, hl, fun j s en hs hen => ?_⟩
  obtain ⟨w, en', hw, _, _, i, u, v, _, hu, hv, hfrom⟩ := hq j s hs
  have : en' = en := by
    rw [List.getElem?_map, hw] at hen
    exact Option.some.inj hen
  subst this
  rcases hfrom with hfr | hfr | hfr
  · obtain ⟨q1, q2⟩ := C79_from_unbinding (ok.env r i).1 hpar.prec hpar.min hfr
    refine ⟨q1, fun hr => ?_⟩
    obtain ⟨extra, last, q⟩ := q2 hr
    exact ⟨i, _, extra, _, last, Or.inl rfl, Or.inl ⟨u, hu, rfl⟩, q⟩
  · obtain ⟨q1, q2⟩ := C79_from_unbinding (ok.env' r i).1 hpar.prec hpar.min hfr
    refine ⟨q1, fun hr => ?_⟩
    obtain ⟨extra, last, q⟩ := q2 hr
    exact ⟨i, _, extra, _, last, Or.inr rfl, Or.inr ⟨v, hv, Or.inl rfl⟩, q⟩
  · obtain ⟨q1, q2⟩ := C79_from_unbinding (ok.env' r i).1 hpar.prec hpar.min hfr
    refine ⟨q1, fun hr => ?_⟩
    obtain ⟨extra, last, q⟩ := q2 hr
    exact ⟨i, _, extra, _, last, Or.inr rfl, Or.inr ⟨v, hv, Or.inr rfl⟩, q⟩

omit [LinearOrder K] [MassSum K] [LinearOrder E] [Zero E] in
/-- **C79.** In a build with `INCLUSIVE_MASS` the energies are not in the order of the particles: `PurgeMostBoundParticles` exchanges the first particle for another and leaves the
energies. Here unbinding leaves particles 13 and 11 with energies -23 and -21; afterwards particle 11 comes first, and beside it is the energy of particle 13. -/
theorem C79_purge_disorder : ∃ (s u : Sub Int Int) (en : List Int), unbindStored (exUnbindCfg 2) (exUnbindEnv exEnergies) 5 7 exUnbindSub = .ok (s, en) ∧
    s.particles.take s.nbound = [⟨13, 8⟩, ⟨11, 2⟩] ∧ en = [-23, -21] ∧ purgeStored [] (s, en) 0 = .ok ((u, en), 2) ∧ u.nbound = 2 ∧ u.particles.take 2 = [⟨11, 2⟩, ⟨13, 8⟩] :=
  ⟨{ exUnbindSub with particles := [⟨13, 8⟩, ⟨11, 2⟩, ⟨10, 1⟩, ⟨12, 4⟩], nbound := 2, mbound := 10 },
   { exUnbindSub with particles := [⟨11, 2⟩, ⟨13, 8⟩, ⟨10, 1⟩, ⟨12, 4⟩], nbound := 2, mbound := 10 }, [-23, -21],
   by decide +kernel, by decide +kernel, rfl, by decide +kernel, rfl, by decide +kernel⟩

end HBT.Props
