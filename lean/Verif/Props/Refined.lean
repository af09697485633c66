import Verif.Props.SampledUnbindExample
/-!
# C80: the order of the innermost particles after refinement

With `RefineMostboundParticle` and potentials of samples, the most bound particles are put into the order of their energies in the gravity of each other, which is not estimated.
-/
namespace HBT.Props
open HBT HBT.Model HBT.Spec HBT.UE
variable {K D : Type} [Field K] [LinearOrder K] [IsStrictOrderedRing K]

theorem picked_at {α : Type} {ps : List α} : ∀ {is : List Nat} {out : List α}, pickAll ps is = .ok out → ∀ (n : Nat) (x : α), out[n]? = some x →
    ∃ i, is[n]? = some i ∧ ps[i]? = some x := by
  intro is
  induction is with
  | nil => intro out h n x hx; cases h; simp at hx
  | cons i is ih =>
    intro out h n x hx
    rw [pickAll] at h
    obtain ⟨y, hy, h⟩ := bind_ok_inv h
    obtain ⟨ys, hys, h⟩ := bind_ok_inv h
    cases h
    cases n with
    | zero =>
      simp only [List.getElem?_cons_zero, Option.some.injEq] at hx
      subst hx
      exact ⟨i, rfl, get_inv hy⟩
    | succ n =>
      rw [List.getElem?_cons_succ] at hx
      obtain ⟨j, h1, h2⟩ := ih hys n x hx
      exact ⟨j, by rw [List.getElem?_cons_succ]; exact h1, h2⟩

/-- A number near `e`, rounded. -/
theorem rounded_near {fl : K → K} {u : K} (hfl : RoundsWithin fl u) (hu : u < 1) {v e d : K} (h : |v - e| ≤ d) : |fl v - e| ≤ d + u / (1 - u) * (|e| + d) := by
  have h1 := hfl.near v
  have h2 : |fl v| ≤ |v| + |fl v - v| := by
    have := abs_add_le v (fl v - v)
    rwa [add_sub_cancel] at this
  have h3 : |v| ≤ |e| + |v - e| := by
    have := abs_add_le e (v - e)
    rwa [add_sub_cancel] at this
  have h4 : |fl v - e| ≤ |fl v - v| + |v - e| := abs_sub_le _ _ _
  have hpos : 0 < 1 - u := by linarith
  have h5 : |fl v| ≤ (|e| + d) / (1 - u) := by
    rw [le_div_iff₀ hpos]
    linarith
  have h6 : u * |fl v| ≤ u * ((|e| + d) / (1 - u)) := mul_le_mul_of_nonneg_left h5 hfl.nonneg
  have h7 : u * ((|e| + d) / (1 - u)) = u / (1 - u) * (|e| + d) := by ring
  linarith

theorem refine_ordered {ph : Physics K} {u : K} (hfl : RoundsWithin ph.fl u) (hu : u < 1) {dom : (Fin 3 → K) → Prop} {field err : (Fin 3 → K) → Weighted K → K}
    (hex : NearGravity ph.solve dom field err) {bs : List (Body K)} (hm : ∀ b ∈ bs, 0 < b.mass ∧ dom b.pos) {sortE : List (PE K) → List (PE K)}
    (hs : SortsBy PE.e sortE) {k size : Nat} {ref : Frame K} {l l' : List (PE K)} (hv : ∀ e ∈ l, e.pid < bs.length)
    (h : refineEnergies ph sortE bs k size ref l = .ok l') :
    InOrderWithin (fun others b => sumOf err b.pos others + u / (1 - u) * (|specificEnergy (Physics.away ph) field (ph.hz * ph.scale) false ref others b| + sumOf err b.pos others))
      (specificEnergy (Physics.away ph) field (ph.hz * ph.scale) false ref) (entryBodies bs (l'.take size)) := by
  have hsz : size ≤ l.length := by
    unfold refineEnergies at h
    split at h
    · cases h
    · omega
  have hperm := refine_perm (fun l => (hs l).1) h size le_rfl hsz
  have hM := members_perm bs hperm
  have hv' : ∀ e ∈ l'.take size, e.pid < bs.length := fun e he => hv e (List.mem_of_mem_take (hperm.mem_iff.1 he))
  unfold refineEnergies at h
  rw [if_neg (by omega)] at h
  obtain ⟨tree, ht, h⟩ := bind_ok_inv h
  obtain ⟨pot, hp, h⟩ := bind_ok_inv h
  obtain ⟨inner, hin, h⟩ := bind_ok_inv h
  obtain ⟨front, hfront, h⟩ := bind_ok_inv h
  have hat := updateFirst_at hin
  have hfl' : front.length = size := by
    have h1 := pickAll_length hfront
    have h2 := (hs (inner.mapIdx (fun i x => (⟨i, x.e⟩ : PE K)))).1.length_eq
    have h3 := updateFirst_length hin
    rw [List.length_map] at h1
    rw [List.length_mapIdx, h3, List.length_take] at h2
    omega
  have htake : l'.take size = front := by
    cases h
    rw [List.take_append_of_le_length (by omega), List.take_of_length_le (by omega)]
  -- the energy by which the body at `n` was sorted
  have key : ∀ (n : Nat) (b : Body K), (entryBodies bs (l'.take size))[n]? = some b →
      ∃ o, (sortE (inner.mapIdx (fun i x => (⟨i, x.e⟩ : PE K))))[n]? = some o ∧
        |o.e - specificEnergy (Physics.away ph) field (ph.hz * ph.scale) false ref ((entryBodies bs (l'.take size)).eraseIdx n) b| ≤
          sumOf err b.pos ((entryBodies bs (l'.take size)).eraseIdx n) +
            u / (1 - u) * (|specificEnergy (Physics.away ph) field (ph.hz * ph.scale) false ref ((entryBodies bs (l'.take size)).eraseIdx n) b| + sumOf err b.pos ((entryBodies bs (l'.take size)).eraseIdx n)) := by
    intro n b hb
    have hn : n < (l'.take size).length := by
      rw [← members_length hv']
      exact (List.getElem?_eq_some_iff.1 hb).1
    have hx := entryBodies_at hv' n _ (List.getElem?_eq_getElem hn)
    rw [hb] at hx
    generalize hxe : (l'.take size)[n] = x at hx
    have hx2 : (l'.take size)[n]? = some x := by rw [List.getElem?_eq_getElem hn, hxe]
    rw [htake] at hx2
    obtain ⟨i, hi, hxi⟩ := picked_at hfront n x hx2
    rw [List.getElem?_map] at hi
    obtain ⟨o, ho, hoi⟩ := Option.map_eq_some_iff.1 hi
    refine ⟨o, ho, ?_⟩
    have hmem := (hs _).1.mem_iff.1 (List.mem_of_getElem? ho)
    obtain ⟨m, hm1, hm2⟩ := List.mem_mapIdx.1 hmem
    have hmi : m = i := by rw [← hoi, ← hm2]
    subst hmi
    have hoe : o.e = inner[m].e := by rw [← hm2]
    have hms : m < size := by
      have := updateFirst_length hin
      rw [List.length_take] at this
      omega
    obtain ⟨x', hx', hp', hf⟩ := hat m inner[m] hms (List.getElem?_eq_getElem hm1)
    have hxx : x' = x := by
      rw [List.getElem?_take, if_pos hms, hxi] at hx'
      exact (Option.some.inj hx').symm
    subst hxx
    obtain ⟨b', hb', hf⟩ := bind_ok_inv hf
    have hbb : b' = b := by
      have := get_inv hb'
      rw [← hx] at this
      exact (Option.some.inj this).symm
    subst hbb
    obtain ⟨E, hE, hf⟩ := bind_ok_inv hf
    unfold energyIn at hE
    obtain ⟨p, hpp, hE⟩ := bind_ok_inv hE
    have hpe : (b' :: (entryBodies bs (l'.take size)).eraseIdx n).Perm (entryBodies bs (l.take size)) := by
      obtain ⟨h1, h2⟩ := List.getElem?_eq_some_iff.1 hb
      refine List.Perm.trans ?_ hM
      conv_lhs => rw [← h2]
      exact List.getElem_cons_eraseIdx_perm h1
    have htree : tree = entryBodies bs (l.take size) := pickAll_members ht
    have hsum := hex.own k _ (((entryBodies bs (l'.take size)).eraseIdx n).map (fun b => (b.mass, b.pos))) pot b'.pos b'.mass p (by
      intro w hw
      obtain ⟨c, hc, rfl⟩ := List.mem_map.1 hw
      rw [htree] at hc
      obtain ⟨_, _, hc⟩ := mem_members hc
      exact hm c (List.mem_of_getElem? hc)) (by rw [htree]; exact hpe.map (fun b => (b.mass, b.pos))) hp hpp
    rw [List.map_map, List.map_map] at hsum
    have hval : E - specificEnergy (Physics.away ph) field (ph.hz * ph.scale) false ref ((entryBodies bs (l'.take size)).eraseIdx n) b' =
        p - sumOf field b'.pos ((entryBodies bs (l'.take size)).eraseIdx n) := by
      injection hE with hE
      rw [← hE]
      unfold specificEnergy Physics.velocity relativeVelocity vecDot Physics.away sumOf
      simp only [Bool.false_eq_true, if_false]
      ring
    have ho' : o.e = ph.fl E := by
      injection hf with hf
      rw [hoe, ← hf]
    have hE1 : |E - specificEnergy (Physics.away ph) field (ph.hz * ph.scale) false ref ((entryBodies bs (l'.take size)).eraseIdx n) b'| ≤ sumOf err b'.pos ((entryBodies bs (l'.take size)).eraseIdx n) := by
      rw [hval]
      exact hsum
    rw [ho']
    exact rounded_near hfl hu hE1
  intro i j b c hij hb hc
  obtain ⟨o1, h1, h2⟩ := key i b hb
  obtain ⟨o2, h3, h4⟩ := key j c hc
  obtain ⟨a1, a2⟩ := List.getElem?_eq_some_iff.1 h1
  obtain ⟨b1, b2⟩ := List.getElem?_eq_some_iff.1 h3
  have hle := List.pairwise_iff_getElem.1 (hs (inner.mapIdx (fun i x => (⟨i, x.e⟩ : PE K)))).2 i j a1 b1 hij
  rw [a2, b2] at hle
  have := neg_abs_le (o1.e - specificEnergy (Physics.away ph) field (ph.hz * ph.scale) false ref ((entryBodies bs (l'.take size)).eraseIdx i) b)
  have := le_abs_self (o2.e - specificEnergy (Physics.away ph) field (ph.hz * ph.scale) false ref ((entryBodies bs (l'.take size)).eraseIdx j) c)
  simp only
  linarith

/-- The list at the end of the loop was refined. -/
theorem passes_refined {cfg : UnbindConfig} {ph : Physics K} {sortE : List (PE K) → List (PE K)} (hs : ∀ l, (sortE l).Perm l) {bs : List (Body K)} :
    ∀ (fuel k : Nat) (corr : Option (Frame K)) (ref : Frame K) (l : List (PE K)) (nlast nbound : Nat) (tr : List (Pass K)) (l' : List (PE K)) (nb : Nat) (g : Frame K),
      unbindPasses cfg ph sortE bs fuel k corr ref l nlast nbound = .ok (tr, some (l', nb, g)) → (∀ e ∈ l, e.pid < bs.length) →
      0 < cfg.maxSample → cfg.refine = true → cfg.maxSample < nb →
      ∃ k L, (∀ e ∈ L, e.pid < bs.length) ∧ refineEnergies ph sortE bs k cfg.maxSample g L = .ok l' := by
  intro fuel
  induction fuel with
  | zero => intro k corr ref l nlast nbound tr l' nb g h; cases h
  | succ fuel ih =>
    intro k corr ref l nlast nbound tr l' nb g h hval hq hr hlt
    obtain ⟨l1, r1, L, nb', st⟩ := step_of h
    obtain ⟨hnl, hpid, hdrop, hlen⟩ := st.shape
    have hL := reordered hs (by omega) st.part
    rw [← st.def_] at hL
    obtain ⟨hle, hr1, hLl, hLt, hLp, hLd, _⟩ := hL
    have hval1 : ∀ e ∈ l1, e.pid < bs.length := by
      intro e he
      have : e.pid ∈ l1.map PE.pid := List.mem_map_of_mem he
      rw [hpid] at this
      obtain ⟨e', he', h'⟩ := List.mem_map.1 this
      rw [← h']
      exact hval e' he'
    have hvalL : ∀ e ∈ L, e.pid < bs.length := by
      intro e he
      rw [← List.take_append_drop nbound L, hLd, List.mem_append, hLp.mem_iff, ← List.mem_append, List.take_append_drop] at he
      exact hval1 e he
    rcases st.next with ⟨_, _, hres⟩ | ⟨_, _, _, l2, hres, hl2⟩ | ⟨_, _, tr', _, hrun⟩
    · cases hres
    · injection hres with hres
      injection hres with h1 h2
      injection h2 with h2 h3
      subst h1 h2
      rw [if_pos ⟨hq, hr, hlt⟩, ← h3] at hl2
      refine ⟨_, _, ?_, hl2⟩
      intro e he
      rw [List.mem_append, (hs _).mem_iff, ← List.mem_append, List.take_append_drop] at he
      exact hvalL e he
    · exact ih _ _ _ _ _ _ _ _ _ _ hrun hvalL hq hr hlt

/-- C80: with `RefineMostboundParticle` and a sample smaller than the bound part, the first particles of a subhalo after unbinding, as many as a sample has, are in the order of the energies
that each has in the gravity of the others, in the new frame of the subhalo, up to the errors of the solver and of rounding (at most the part `u / (1 - u)` of an energy). So the first is the most bound of them. The thermal energy is left out
(src/subhalo_unbind.cpp:247). -/
theorem C80_refined_rounded (cfg : UnbindConfig) (ph : Physics K) (u : K) (hfl : RoundsWithin ph.fl u) (hu : u < 1) (dom : (Fin 3 → K) → Prop) (field err : (Fin 3 → K) → K × (Fin 3 → K) → K)
    (hex : NearGravity ph.solve dom field err) (sortE : List (PE K) → List (PE K)) (hs : SortsBy PE.e sortE) (shuffle : List (Particle D) → List (Particle D))
    (hsh : ∀ l, (shuffle l).Perm l) (junk : Nat → K) (way : Nat) (body : D → Body K) (fuel : Nat) (snap : Int) (ref : Frame K) (s s' : Sub K D) (g : Frame K)
    (tr : List (Pass K)) (h : unbindBodies cfg ph sortE shuffle junk way body fuel snap ref s = .ok (s', some g, tr))
    (hm : ∀ b ∈ bodiesOf body s.particles, 0 < b.mass ∧ dom b.pos) (hr : cfg.refine = true) (hq : 0 < cfg.maxSample) (hlt : cfg.maxSample < s'.nbound) :
    InOrderWithin (fun others b => (others.map (fun o => err b.pos (o.mass, o.pos))).sum +
        u / (1 - u) * (|specificEnergy (Physics.away ph) field (ph.hz * ph.scale) false g others b| + (others.map (fun o => err b.pos (o.mass, o.pos))).sum))
      (specificEnergy (Physics.away ph) field (ph.hz * ph.scale) false g)
      (bodiesOf body (s'.particles.take cfg.maxSample)) := by
  unfold unbindBodies at h
  simp only at h
  have hps : (if s.particles.length < cfg.minNum then die snap s else s).particles = s.particles := by
    unfold die
    split_ifs <;> rfl
  rw [hps] at h
  rcases hsp : s.particles with _ | ⟨p0, _ | ⟨p1, ps⟩⟩
  · rw [hsp] at h; cases h
  · rw [hsp] at h; cases h
  · rw [hsp] at h
    simp only at h
    rw [← hsp] at h
    generalize hqs : (if 0 < cfg.maxSample ∧ cfg.maxSample < s.particles.length then shuffle s.particles else s.particles) = qs at h
    have hperm : (bodiesOf body qs).Perm (bodiesOf body s.particles) := by
      unfold bodiesOf
      rw [← hqs]
      split
      · exact (hsh _).map _
      · exact List.Perm.refl _
    obtain ⟨⟨tr', res⟩, hrun, h⟩ := bind_ok_inv h
    cases res with
    | none =>
      simp only at h
      obtain ⟨ps', _, h⟩ := bind_ok_inv h
      cases h
    | some r =>
      obtain ⟨l, nb, g'⟩ := r
      simp only at h
      obtain ⟨ps', hpick, h⟩ := bind_ok_inv h
      cases h
      simp only at hlt ⊢
      have h1 := picked_bodies (body := body) hpick
      have h2 := pickAll_length hpick
      obtain ⟨k, L, hL, href⟩ := passes_refined (fun l => (hs l).1) _ _ _ _ _ _ _ _ _ _ _ hrun (by
        intro e he
        obtain ⟨i, hi, rfl⟩ := List.mem_map.1 he
        have := hperm.length_eq
        unfold bodiesOf at this
        rw [List.length_map, List.length_map] at this
        simp only [List.length_map]
        have := List.mem_range.1 hi
        omega) hq hr hlt
      have hord := refine_ordered hfl hu hex (fun b hb => hm b (hperm.mem_iff.1 hb)) hs hL href
      have e : bodiesOf body (ps'.take cfg.maxSample) = entryBodies (bodiesOf body qs) (l.take cfg.maxSample) := by
        rw [entryBodies_take (by rw [← h1]; simpa using h2), ← h1]
        exact List.map_take
      rw [e]
      exact hord

/-- C80: the same with energies that are not rounded. -/
theorem C80_refined (cfg : UnbindConfig) (ph : Physics K) (hfl : ph.fl = id) (dom : (Fin 3 → K) → Prop) (field err : (Fin 3 → K) → K × (Fin 3 → K) → K)
    (hex : NearGravity ph.solve dom field err) (sortE : List (PE K) → List (PE K)) (hs : SortsBy PE.e sortE) (shuffle : List (Particle D) → List (Particle D))
    (hsh : ∀ l, (shuffle l).Perm l) (junk : Nat → K) (way : Nat) (body : D → Body K) (fuel : Nat) (snap : Int) (ref : Frame K) (s s' : Sub K D) (g : Frame K)
    (tr : List (Pass K)) (h : unbindBodies cfg ph sortE shuffle junk way body fuel snap ref s = .ok (s', some g, tr))
    (hm : ∀ b ∈ bodiesOf body s.particles, 0 < b.mass ∧ dom b.pos) (hr : cfg.refine = true) (hq : 0 < cfg.maxSample) (hlt : cfg.maxSample < s'.nbound) :
    InOrderWithin (fun others b => (others.map (fun o => err b.pos (o.mass, o.pos))).sum) (specificEnergy (Physics.away ph) field (ph.hz * ph.scale) false g)
      (bodiesOf body (s'.particles.take cfg.maxSample)) := by
  have := C80_refined_rounded cfg ph 0 ⟨le_rfl, fun v => by simp [hfl]⟩ one_pos dom field err hex sortE hs shuffle hsh junk way body fuel snap ref s s' g tr h hm hr hq hlt
  simpa using this

/-! ## Non-vacuity -/

theorem lineSort_sorts : SortsBy PE.e lineSort := by
  intro l
  refine ⟨lineSort_perm l, ?_⟩
  have : IsTrans (PE ℚ) (fun a b => a.e ≤ b.e) := ⟨fun _ _ _ h1 h2 => le_trans h1 h2⟩
  have : Std.Total (fun a b : PE ℚ => a.e ≤ b.e) := ⟨fun a b => le_total a.e b.e⟩
  exact List.pairwise_insertionSort _ l

/-- `C80_refined` applies to the run of the example for `C80_unbinding`, in which four bodies stay and three are a sample. -/
example : ∃ s g tr, sampledRun = .ok (s, some g, tr) ∧ s.nbound = 4 ∧
    InOrderWithin (fun _ _ => 0) (specificEnergy (fun x y d => x d - y d) lineField 0 false g) (bodiesOf id (s.particles.take 3)) := by
  obtain ⟨s, f, tr, h, hg⟩ := ranAs_ok (r := sampledRun) (good := fun s f _ => f.isSome && (s.nbound = 4)) (by decide +kernel)
  simp only [Bool.and_eq_true, decide_eq_true_eq] at hg
  obtain ⟨h1, h3⟩ := hg
  obtain ⟨g, rfl⟩ := Option.isSome_iff_exists.1 h1
  refine ⟨s, g, tr, h, h3, ?_⟩
  have key := C80_refined sampledConfig linePhysics rfl (fun _ => True) lineField (fun _ _ => 0) lineSolver_exact.near lineSort lineSort_sorts
    List.reverse List.reverse_perm (fun _ => 0) 0 id 9 5 atRest (lineSub calmBodies) s g tr h
    (by
      rw [lineSub_bodies]
      intro b hb
      simp only [calmBodies, List.mem_cons, List.not_mem_nil, or_false] at hb
      rcases hb with rfl | rfl | rfl | rfl | rfl <;> norm_num [onLine])
    rfl (by decide) (by rw [h3]; decide)
  have haway : Physics.away linePhysics = fun x y d => x d - y d := by
    funext x y d
    simp [Physics.away, treeOffset, linePhysics]
  rw [haway] at key
  simpa [linePhysics, sampledConfig] using key

/-- `C80_refined_rounded` applies, with energies of type `float`. -/
example : ∃ s g tr, unbindBodies sampledConfig { linePhysics with fl := roundTo 24 } lineSort List.reverse (fun _ => 0) 0 id 9 5 atRest (lineSub calmBodies) = .ok (s, some g, tr) ∧
    s.nbound = 4 ∧ ∃ slack, InOrderWithin slack (specificEnergy (fun x y d => x d - y d) lineField 0 false g) (bodiesOf id (s.particles.take 3)) ∧
      ∀ others b, slack others b = (1 / 2 ^ 24) / (1 - 1 / 2 ^ 24) * |specificEnergy (fun x y d => x d - y d) lineField 0 false g others b| := by
  obtain ⟨s, f, tr, h, hg⟩ := ranAs_ok (r := unbindBodies sampledConfig { linePhysics with fl := roundTo 24 } lineSort List.reverse (fun _ => 0) 0 id 9 5 atRest (lineSub calmBodies))
    (good := fun s f _ => f.isSome && (s.nbound = 4)) (by decide +kernel)
  simp only [Bool.and_eq_true, decide_eq_true_eq] at hg
  obtain ⟨h1, h3⟩ := hg
  obtain ⟨g, rfl⟩ := Option.isSome_iff_exists.1 h1
  refine ⟨s, g, tr, h, h3, ?_⟩
  have hu : (1 : ℚ) / 2 ^ 24 < 1 := by norm_num
  have key := C80_refined_rounded sampledConfig { linePhysics with fl := roundTo 24 } (1 / 2 ^ 24) (C80_float 24 (by norm_num) _ (roundTo_nearest (by norm_num))) hu
    (fun _ => True) lineField (fun _ _ => 0) lineSolver_exact.near lineSort lineSort_sorts
    List.reverse List.reverse_perm (fun _ => 0) 0 id 9 5 atRest (lineSub calmBodies) s g tr h
    (by
      rw [lineSub_bodies]
      intro b hb
      simp only [calmBodies, List.mem_cons, List.not_mem_nil, or_false] at hb
      rcases hb with rfl | rfl | rfl | rfl | rfl <;> norm_num [onLine])
    rfl (by decide) (by rw [h3]; decide)
  have haway : Physics.away { linePhysics with fl := roundTo 24 } = fun x y d => x d - y d := by
    funext x y d
    simp [Physics.away, treeOffset, linePhysics]
  have e : ({ linePhysics with fl := roundTo 24 } : Physics ℚ).hz * ({ linePhysics with fl := roundTo 24 } : Physics ℚ).scale = 0 := by simp [linePhysics]
  have hq : sampledConfig.maxSample = 3 := rfl
  rw [haway, e, hq] at key
  refine ⟨_, key, fun others b => ?_⟩
  have z : (others.map (fun _ => (0 : ℚ))).sum = 0 := by simp
  simp only [z, zero_add, add_zero]

end HBT.Props
