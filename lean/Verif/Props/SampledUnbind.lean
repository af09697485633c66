import Verif.Props.SampledEnergy
/-!
# C80: unbinding with energies from samples

Unbinding with `MaxSampleSizeOfPotentialEstimate` is iterative unbinding with energies wrong by no more than the samples are.
-/
namespace HBT.Props
open HBT HBT.Model HBT.Spec HBT.UE
variable {K D : Type} [Field K] [LinearOrder K] [IsStrictOrderedRing K]

/-- An iteration after which energies are no longer computed anew: fewer particles were removed than stay, and than there are in a sample. -/
def Pass.Slow (cfg : UnbindConfig) (p : Pass K) : Prop :=
  p.list.length - p.nbound < p.nbound ∧ (cfg.maxSample = 0 ∨ p.list.length - p.nbound < cfg.maxSample)

/-- For each of the bodies `l`, the potential of the sample in place of the other bodies is wrong by no more than `slack`, less the errors of the gravity of both. -/
def SampleWithin (field err : (Fin 3 → K) → Weighted K → K) (slack : Body K → K) (q : Nat) (l : List (Body K)) : Prop :=
  ∀ (i : Nat) (b : Body K), l[i]? = some b →
    |sumOf field b.pos ((sampleOf q l).eraseIdx i) - sumOf field b.pos (l.eraseIdx i)| + sumOf err b.pos ((sampleOf q l).eraseIdx i) +
      sumOf err b.pos (l.eraseIdx i) ≤ slack b

/-- Rounding changes a number by no more than the part `u` of the result. So it is for rounding to nearest, of numbers that neither overflow nor underflow. -/
structure RoundsWithin (fl : K → K) (u : K) : Prop where
  nonneg : 0 ≤ u
  near : ∀ v, |fl v - v| ≤ u * |fl v|

/-- `R` bounds the rounding of each of the energies of the entries `l`: of the energies, and of the kinetic and potential energies alone. -/
def RoundingOf (ph : Physics K) (u : K) (R : Body K → K) (bs : List (Body K)) (l : List (PE K)) : Prop :=
  ∀ e ∈ l, ∀ b, bs[e.pid]? = some b → u * ((1 + u) * |e.e| + if ph.withThermal then |b.thermal| else 0) ≤ R b

theorem rounded_sum {fl : K → K} {u : K} (h : RoundsWithin fl u) (E t : K) :
    |fl (fl E + t) - (E + t)| ≤ 2 * (u * ((1 + u) * |fl (fl E + t)| + |t|)) := by
  have h1 := h.near (fl E + t)
  have h2 := h.near E
  have hu := h.nonneg
  generalize fl (fl E + t) = e at h1 ⊢
  have h3 : |fl E| ≤ (1 + u) * |e| + |t| := by
    have a1 : |fl E + t| ≤ |e| + |e - (fl E + t)| := by
      have := abs_sub_abs_le_abs_sub (fl E + t) e
      rw [abs_sub_comm] at this
      linarith
    have a2 : |fl E| ≤ |fl E + t| + |t| := by
      have := abs_sub (fl E + t) t
      rwa [add_sub_cancel_right] at this
    linarith
  have h4 : |e - (E + t)| ≤ |e - (fl E + t)| + |fl E - E| := by
    have := abs_add_le (e - (fl E + t)) (fl E - E)
    have e1 : e - (fl E + t) + (fl E - E) = e - (E + t) := by ring
    rwa [e1] at this
  have h5 : u * |fl E| ≤ u * ((1 + u) * |e| + |t|) := mul_le_mul_of_nonneg_left h3 hu
  have h6 : u * |e| ≤ u * ((1 + u) * |e| + |t|) := mul_le_mul_of_nonneg_left (by nlinarith [abs_nonneg e, abs_nonneg t]) hu
  linarith

omit [Field K] [LinearOrder K] [IsStrictOrderedRing K] in
theorem updateFirst_at {f : Nat → PE K → Outcome K} : ∀ {n i : Nat} {l l1 : List (PE K)}, updateFirst f i n l = .ok l1 →
    ∀ (j : Nat) (y : PE K), j < n → l1[j]? = some y → ∃ x, l[j]? = some x ∧ y.pid = x.pid ∧ f (i + j) x = .ok y.e := by
  intro n
  induction n with
  | zero => intro i l l1 _ j y hj; omega
  | succ n ih =>
    intro i l l1 h j y hj hy
    cases l with
    | nil => cases h
    | cons x l =>
      rw [updateFirst] at h
      obtain ⟨e, he, h⟩ := bind_ok_inv h
      obtain ⟨r, hr, h⟩ := bind_ok_inv h
      cases h
      cases j with
      | zero =>
        simp only [List.getElem?_cons_zero, Option.some.injEq] at hy
        subst hy
        exact ⟨x, rfl, rfl, he⟩
      | succ j =>
        rw [List.getElem?_cons_succ] at hy
        obtain ⟨x', hx', hp, hf⟩ := ih hr j y (by omega) hy
        exact ⟨x', by simpa using hx', hp, by rw [← hf]; congr 1; omega⟩

omit [Field K] [LinearOrder K] [IsStrictOrderedRing K] in
theorem entryBodies_at {bs : List (Body K)} : ∀ {l : List (PE K)}, (∀ e ∈ l, e.pid < bs.length) → ∀ (i : Nat) (e : PE K), l[i]? = some e →
    (entryBodies bs l)[i]? = bs[e.pid]? := by
  intro l
  induction l with
  | nil => intro _ i e h; simp at h
  | cons a l ih =>
    intro hv i e h
    have ha := hv a List.mem_cons_self
    unfold entryBodies at ih ⊢
    rw [List.filterMap_cons, List.getElem?_eq_getElem ha]
    cases i with
    | zero =>
      simp only [List.getElem?_cons_zero, Option.some.injEq] at h ⊢
      subst h
      rw [List.getElem?_eq_getElem ha]
    | succ i =>
      rw [List.getElem?_cons_succ] at h ⊢
      exact ih (fun e he => hv e (List.mem_cons_of_mem _ he)) i e h

omit [LinearOrder K] [IsStrictOrderedRing K] in
theorem sum_others (g : Body K → K) {l others : List (Body K)} {i : Nat} {b : Body K} (hi : l[i]? = some b) (hp : (b :: others).Perm l) :
    (others.map g).sum = ((l.eraseIdx i).map g).sum := by
  rw [sum_eraseIdx, hi, ← (hp.map g).sum_eq]
  simp

theorem full_sampled {q : Nat} {ph : Physics K} {u : K} {R : Body K → K} (hfl : RoundsWithin ph.fl u) {dom : (Fin 3 → K) → Prop} {field err : (Fin 3 → K) → Weighted K → K} {slack : Body K → K}
    (hex : NearGravity ph.solve dom field err) {bs : List (Body K)} (hm : ∀ b ∈ bs, 0 < b.mass ∧ dom b.pos) {k n : Nat} {ref : Frame K} {l l1 : List (PE K)}
    (hv : ∀ e ∈ l, e.pid < bs.length) (h : fullEnergies q ph bs k n ref l = .ok l1) (hsl : SampleWithin field err slack q (entryBodies bs (l1.take n)))
    (hR : RoundingOf ph u R bs (l1.take n)) : EnergiesOf ph field err (fun b => slack b + 2 * R b) bs ref (l1.take n) (l1.take n) := by
  unfold fullEnergies at h
  simp only at h
  obtain ⟨tree, ht, h⟩ := bind_ok_inv h
  obtain ⟨pot, hp, h⟩ := bind_ok_inv h
  obtain ⟨hn, hpid, _, _⟩ := updateFirst_facts h
  have hat := updateFirst_at h
  have hlen := updateFirst_length h
  have hv1 : ∀ e ∈ l1, e.pid < bs.length := by
    intro e he
    have : e.pid ∈ l1.map PE.pid := List.mem_map_of_mem he
    rw [hpid] at this
    obtain ⟨e', he', h'⟩ := List.mem_map.1 this
    rw [← h']
    exact hv e' he'
  have hv2 : ∀ e ∈ l1.take n, e.pid < bs.length := fun e he => hv1 e (List.mem_of_mem_take he)
  have hlenM : (entryBodies bs (l1.take n)).length = n := by
    rw [members_length hv2, List.length_take]; omega
  have htake : ∀ m, entryBodies bs (l.take m) = entryBodies bs (l1.take m) := fun m => by
    rw [members_map, members_map, List.map_take, List.map_take, hpid]
  -- the tree holds the sample
  have hsample : tree.map (fun b => (b.mass * (if 0 < q ∧ q < n then (n : K) / q else 1), b.pos)) =
      (sampleOf q (entryBodies bs (l1.take n))).map (fun b => (b.mass, b.pos)) := by
    rw [pickAll_members ht, htake]
    unfold sampleOf
    rw [hlenM]
    split
    · rename_i hc
      unfold standIns
      rw [List.map_map, hlenM, ← entryBodies_take (members_length hv2), List.take_take, Nat.min_eq_left (by omega)]
      rfl
    · simp
  rw [hsample] at hp
  have hin : ∀ b ∈ sampleOf q (entryBodies bs (l1.take n)), 0 < b.mass ∧ dom b.pos := by
    intro b hb
    unfold sampleOf at hb
    split at hb
    · rename_i hc
      obtain ⟨c, hc', rfl⟩ := List.mem_map.1 hb
      obtain ⟨_, _, hc'⟩ := mem_members (List.mem_of_mem_take hc')
      obtain ⟨h1, h2⟩ := hm c (List.mem_of_getElem? hc')
      exact ⟨mul_pos h1 (div_pos (Nat.cast_pos.2 (by omega)) (Nat.cast_pos.2 hc.1)), h2⟩
    · obtain ⟨_, _, hb⟩ := mem_members hb
      exact hm b (List.mem_of_getElem? hb)
  have hin' : ∀ w ∈ (sampleOf q (entryBodies bs (l1.take n))).map (fun b => (b.mass, b.pos)), 0 < w.1 ∧ dom w.2 := by
    intro w hw
    obtain ⟨b, hb, rfl⟩ := List.mem_map.1 hw
    exact hin b hb
  intro e he b others hb hperm
  obtain ⟨j, hj⟩ := List.getElem?_of_mem he
  have hjM := entryBodies_at hv2 j e hj
  rw [hb] at hjM
  have hjn : j < n := by
    have := (List.getElem?_eq_some_iff.1 hjM).1
    omega
  rw [List.getElem?_take, if_pos hjn] at hj
  obtain ⟨x, hx, hxp, hf⟩ := hat j e hjn hj
  obtain ⟨b', hb', hf⟩ := bind_ok_inv hf
  have hbb : b' = b := by
    have := get_inv hb'
    rw [← hxp, hb] at this
    exact (Option.some.inj this).symm
  subst hbb
  obtain ⟨E, hE, hf⟩ := bind_ok_inv hf
  unfold energyIn at hE
  obtain ⟨p, hpp, hE⟩ := bind_ok_inv hE
  rw [zero_add] at hpp
  have hsum : |p - sumOf field b'.pos ((sampleOf q (entryBodies bs (l1.take n))).eraseIdx j)| ≤
      sumOf err b'.pos ((sampleOf q (entryBodies bs (l1.take n))).eraseIdx j) := by
    have own : ∀ c : Body K, (sampleOf q (entryBodies bs (l1.take n)))[j]? = some c → c.pos = b'.pos → pot b'.pos c.mass = .ok p →
        |p - sumOf field b'.pos ((sampleOf q (entryBodies bs (l1.take n))).eraseIdx j)| ≤
        sumOf err b'.pos ((sampleOf q (entryBodies bs (l1.take n))).eraseIdx j) := by
      intro c hc hcp hcm
      have hpe : (c :: (sampleOf q (entryBodies bs (l1.take n))).eraseIdx j).Perm (sampleOf q (entryBodies bs (l1.take n))) := by
        have hlt := (List.getElem?_eq_some_iff.1 hc)
        obtain ⟨h1, h2⟩ := hlt
        rw [← h2]
        exact List.getElem_cons_eraseIdx_perm h1
      have := hex.own k _ (((sampleOf q (entryBodies bs (l1.take n))).eraseIdx j).map (fun b => (b.mass, b.pos))) pot b'.pos c.mass p hin' (by
        have := hpe.map (fun b : Body K => (b.mass, b.pos))
        rw [List.map_cons, hcp] at this
        exact this) hp hcm
      rw [List.map_map, List.map_map] at this
      exact this
    by_cases hc : 0 < q ∧ q < n
    · rw [if_pos hc, if_pos hc] at hpp
      have hs : sampleOf q (entryBodies bs (l1.take n)) = standIns q (entryBodies bs (l1.take n)) := by
        unfold sampleOf
        rw [hlenM, if_pos hc]
      by_cases hjq : j < q
      · rw [if_pos hjq] at hpp
        refine own { b' with mass := b'.mass * ((n : K) / q) } ?_ rfl hpp
        rw [hs]
        unfold standIns
        rw [List.getElem?_map, List.getElem?_take, if_pos hjq, hjM, hlenM]
        rfl
      · rw [if_neg hjq] at hpp
        have her : (sampleOf q (entryBodies bs (l1.take n))).eraseIdx j = sampleOf q (entryBodies bs (l1.take n)) := by
          apply List.eraseIdx_of_length_le
          rw [hs]
          unfold standIns
          rw [List.length_map, List.length_take]
          omega
        rw [her]
        have := hex.away k _ pot b'.pos p hin' (hm b' (List.mem_of_getElem? hb)).2 hp hpp
        rw [List.map_map, List.map_map] at this
        exact this
    · rw [if_neg hc, if_neg hc, if_pos hjn, mul_one] at hpp
      refine own b' ?_ rfl hpp
      unfold sampleOf
      rw [hlenM, if_neg hc]
      exact hjM
  have h2 := hsl j b' hjM
  have h3 : sumOf field b'.pos others = sumOf field b'.pos ((entryBodies bs (l1.take n)).eraseIdx j) := sum_others _ hjM hperm
  have h4 : sumOf err b'.pos others = sumOf err b'.pos ((entryBodies bs (l1.take n)).eraseIdx j) := sum_others _ hjM hperm
  have hr := hR e he b' hb
  have key : |e.e - specificEnergy (Physics.away ph) field (ph.hz * ph.scale) ph.withThermal ref others b' -
      (p - sumOf field b'.pos others)| ≤ 2 * R b' := by
    injection hE with hE
    injection hf with hf
    have hu := hfl.nonneg
    have hEs : E = specificEnergy (Physics.away ph) field (ph.hz * ph.scale) false ref others b' + (p - sumOf field b'.pos others) := by
      rw [← hE]
      unfold specificEnergy Physics.velocity relativeVelocity vecDot Physics.away sumOf
      simp only [Bool.false_eq_true, if_false]
      ring
    by_cases hw : ph.withThermal = true
    · rw [if_pos hw] at hf hr
      have h6 := rounded_sum hfl E b'.thermal
      rw [hf] at h6
      have e1 : e.e - specificEnergy (Physics.away ph) field (ph.hz * ph.scale) ph.withThermal ref others b' - (p - sumOf field b'.pos others) = e.e - (E + b'.thermal) := by
        rw [hEs, hw]
        unfold specificEnergy
        simp only [Bool.false_eq_true, if_false, if_true]
        ring
      rw [e1]
      linarith
    · rw [if_neg hw] at hf hr
      have h6 := hfl.near E
      rw [hf] at h6
      have e1 : e.e - specificEnergy (Physics.away ph) field (ph.hz * ph.scale) ph.withThermal ref others b' - (p - sumOf field b'.pos others) = e.e - E := by
        rw [hEs, Bool.eq_false_of_not_eq_true hw]
        ring
      rw [e1]
      have h7 : u * |e.e| ≤ u * ((1 + u) * |e.e| + 0) := mul_le_mul_of_nonneg_left (by nlinarith [abs_nonneg e.e]) hu
      have h8 : 0 ≤ u * |e.e| := mul_nonneg hu (abs_nonneg _)
      linarith
  rw [h3] at key
  rw [h4]
  have h5 := abs_add_le (p - sumOf field b'.pos ((sampleOf q (entryBodies bs (l1.take n))).eraseIdx j))
    (sumOf field b'.pos ((sampleOf q (entryBodies bs (l1.take n))).eraseIdx j) - sumOf field b'.pos ((entryBodies bs (l1.take n)).eraseIdx j))
  have h6 := abs_sub_abs_le_abs_sub (e.e - specificEnergy (Physics.away ph) field (ph.hz * ph.scale) ph.withThermal ref others b')
    (p - sumOf field b'.pos ((entryBodies bs (l1.take n)).eraseIdx j))
  have e2 : p - sumOf field b'.pos ((sampleOf q (entryBodies bs (l1.take n))).eraseIdx j) +
    (sumOf field b'.pos ((sampleOf q (entryBodies bs (l1.take n))).eraseIdx j) - sumOf field b'.pos ((entryBodies bs (l1.take n)).eraseIdx j)) =
    p - sumOf field b'.pos ((entryBodies bs (l1.take n)).eraseIdx j) := by ring
  rw [e2] at h5
  linarith

theorem correct_rounded {ph : Physics K} {u : K} {R : Body K → K} (hfl : RoundsWithin ph.fl u) {dom : (Fin 3 → K) → Prop} {field err : (Fin 3 → K) → Weighted K → K}
    {slack : Body K → K} (hex : NearGravity ph.solve dom field err) {bs : List (Body K)} (hm : ∀ b ∈ bs, 0 < b.mass ∧ dom b.pos)
    {k nlast n : Nat} {old ref : Frame K} {l l1 : List (PE K)}
    (hn : n ≤ nlast)
    (hadd : ∀ b ∈ bs, ∀ d, Physics.away ph b.pos ref.pos d = Physics.away ph b.pos old.pos d + Physics.away ph old.pos ref.pos d)
    (held : EnergiesOf ph field err slack bs old (l.take n) (l.take nlast)) (h : correctEnergies ph bs k nlast n old ref l = .ok l1)
    (hR : RoundingOf ph u R bs (l1.take n)) : EnergiesOf ph field err (fun b => slack b + R b) bs ref (l1.take n) (l1.take n) := by
  unfold correctEnergies at h
  obtain ⟨removed, ht, h⟩ := bind_ok_inv h
  obtain ⟨pot, hp, h⟩ := bind_ok_inv h
  obtain ⟨hnl, hpid, _, hall⟩ := updateFirst_facts h
  have hrem := pickAll_members ht
  have hsplit : l.take nlast = l.take n ++ (l.take nlast).drop n := by
    conv_lhs => rw [← List.take_append_drop n (l.take nlast)]
    rw [List.take_take, min_eq_left hn]
  have hmem1 : entryBodies bs (l1.take n) = entryBodies bs (l.take n) := by
    rw [members_map, members_map, List.map_take, List.map_take, hpid]
  intro e he b others hb hperm
  obtain ⟨j, hj, x, hx, hxp, hf⟩ := hall e he
  obtain ⟨b', hb', hf⟩ := bind_ok_inv hf
  have hbb : b' = b := by
    have := get_inv hb'
    rw [← hxp, hb] at this
    exact (Option.some.inj this).symm
  subst hbb
  obtain ⟨p, hpp, hf⟩ := bind_ok_inv hf
  have hsum := hex.away k _ pot b'.pos p (by
    intro w hw
    obtain ⟨c, hc, rfl⟩ := List.mem_map.1 hw
    rw [hrem] at hc
    obtain ⟨_, _, hc⟩ := List.mem_filterMap.1 hc
    exact hm c (List.mem_of_getElem? hc)) (hm b' (List.mem_of_getElem? hb)).2 hp hpp
  rw [List.map_map, List.map_map] at hsum
  simp only [Function.comp_def] at hsum
  have hold := held x (List.mem_of_getElem? (i := j) (by rw [List.getElem?_take, if_pos hj, hx])) b' (others ++ removed) (by rw [← hxp]; exact hb) (by
    rw [hsplit, members_append, ← hrem, ← List.cons_append, ← hmem1]
    exact hperm.append_right _)
  have ha := hadd b' (List.mem_of_getElem? hb)
  have hr := hR e he b' hb
  have key : |e.e - specificEnergy (Physics.away ph) field (ph.hz * ph.scale) ph.withThermal ref others b' -
      ((x.e - specificEnergy (Physics.away ph) field (ph.hz * ph.scale) ph.withThermal old (others ++ removed) b') - (p - sumOf field b'.pos removed))| ≤ R b' := by
    injection hf with hf
    have hu := hfl.nonneg
    have h6 := hfl.near (x.e + (vecDot (ph.velocity b'.pos b'.vel old) (ph.velocity old.pos old.vel ref) +
      vecDot (ph.velocity old.pos old.vel ref) (ph.velocity old.pos old.vel ref) / 2 - p))
    rw [hf] at h6
    have e1 : e.e - specificEnergy (Physics.away ph) field (ph.hz * ph.scale) ph.withThermal ref others b' -
        ((x.e - specificEnergy (Physics.away ph) field (ph.hz * ph.scale) ph.withThermal old (others ++ removed) b') - (p - sumOf field b'.pos removed)) =
        e.e - (x.e + (vecDot (ph.velocity b'.pos b'.vel old) (ph.velocity old.pos old.vel ref) +
          vecDot (ph.velocity old.pos old.vel ref) (ph.velocity old.pos old.vel ref) / 2 - p)) := by
      unfold specificEnergy Physics.velocity relativeVelocity vecDot sumOf
      rw [ha 0, ha 1, ha 2, List.map_append, List.sum_append]
      unfold Physics.away
      ring
    rw [e1]
    have h7 : u * |e.e| ≤ u * ((1 + u) * |e.e| + if ph.withThermal then |b'.thermal| else 0) := by
      refine mul_le_mul_of_nonneg_left ?_ hu
      have : 0 ≤ (if ph.withThermal then |b'.thermal| else 0) := by
        split
        · exact abs_nonneg _
        · exact le_rfl
      nlinarith [abs_nonneg e.e]
    linarith
  have h3 := abs_sub (x.e - specificEnergy (Physics.away ph) field (ph.hz * ph.scale) ph.withThermal old (others ++ removed) b') (p - sumOf field b'.pos removed)
  have h4 := abs_sub_abs_le_abs_sub (e.e - specificEnergy (Physics.away ph) field (ph.hz * ph.scale) ph.withThermal ref others b')
    ((x.e - specificEnergy (Physics.away ph) field (ph.hz * ph.scale) ph.withThermal old (others ++ removed) b') - (p - sumOf field b'.pos removed))
  unfold sumOf at hold h3 h4 key ⊢
  rw [List.map_append, List.sum_append] at hold
  linarith

omit [IsStrictOrderedRing K] in
theorem energies_mono {ph : Physics K} {field err : (Fin 3 → K) → Weighted K → K} {slack slack' : Body K → K} {bs : List (Body K)} {f : Frame K} {l m : List (PE K)}
    (hs : ∀ b ∈ bs, slack b ≤ slack' b) (h : EnergiesOf ph field err slack bs f l m) : EnergiesOf ph field err slack' bs f l m :=
  fun e he b others hb hp => (h e he b others hb hp).trans (hs b (List.mem_of_getElem? hb))

/-- As `energies_core`, with samples and rounding. -/
theorem energies_sampled {cfg : UnbindConfig} {ph : Physics K} {u : K} {R : Body K → K} (hfl : RoundsWithin ph.fl u) (hR0 : ∀ b, 0 ≤ R b) {dom : (Fin 3 → K) → Prop} {field err : (Fin 3 → K) → Weighted K → K}
    {slack : Body K → K} (hex : NearGravity ph.solve dom field err) {sortE : List (PE K) → List (PE K)} (hs : ∀ l, (sortE l).Perm l)
    {bs : List (Body K)} (hm : ∀ b ∈ bs, 0 < b.mass ∧ dom b.pos) (frames : Frame K → Prop)
    (additive : ∀ f g, frames f → frames g → ∀ b ∈ bs, ∀ d,
      Physics.away ph b.pos g.pos d = Physics.away ph b.pos f.pos d + Physics.away ph f.pos g.pos d) :
    ∀ (fuel k m : Nat) (corr : Option (Frame K)) (ref : Frame K) (l : List (PE K)) (nlast nbound : Nat) (tr : List (Pass K))
      (res : Option (List (PE K) × Nat × Frame K)),
      unbindPasses cfg ph sortE bs fuel k corr ref l nlast nbound = .ok (tr, res) →
      (∀ e ∈ l, e.pid < bs.length) →
      nbound ≤ nlast → 1 ≤ m → (∀ p ∈ tr, RoundingOf ph u R bs p.list) →
      (∀ old, corr = some old → frames old ∧ EnergiesOf ph field err (fun b => slack b + m * R b) bs old (l.take nbound) (l.take nlast)) →
      (corr = none → ∀ pre p post, tr = pre ++ p :: post → (∀ q ∈ pre, ¬ Pass.Slow cfg q) → SampleWithin field err slack cfg.maxSample (entryBodies bs p.list)) →
      (∀ p ∈ tr, frames p.frame) →
      ∀ pre p post, tr = pre ++ p :: post → pre.Pairwise (fun q q' => Pass.Slow cfg q → Pass.Slow cfg q') →
        (corr ≠ none → ∀ q ∈ pre, Pass.Slow cfg q) → EnergiesOf ph field err (fun b => slack b + (m + tr.length : Nat) * R b) bs p.frame p.list p.list := by
  intro fuel
  induction fuel with
  | zero => intro k m corr ref l nlast nbound tr res h; cases h
  | succ fuel ih =>
    intro k m corr ref l nlast nbound tr res h hv hnn hm1 hRs hcorr hsl hfr pre p post htr hpw hq
    obtain ⟨l1, r1, L, nb, st⟩ := step_of h
    obtain ⟨hnl, hpid, hdrop, hlen⟩ := st.shape
    have hcur : ∃ tl, tr = (⟨ref, l1.take nbound, nb⟩ : Pass K) :: tl := by
      rcases st.next with ⟨_, e, _⟩ | ⟨_, _, e, _⟩ | ⟨_, _, tl, e, _⟩ <;> exact ⟨_, e⟩
    have hRc : RoundingOf ph u R bs (l1.take nbound) := by
      obtain ⟨tl, e⟩ := hcur
      exact hRs ⟨ref, l1.take nbound, nb⟩ (by rw [e]; exact List.mem_cons_self)
    have hmlt : ∀ b, ((m + 1 : Nat) : K) * R b ≤ (m + tr.length : Nat) * R b := by
      intro b
      obtain ⟨tl, e⟩ := hcur
      refine mul_le_mul_of_nonneg_right (Nat.cast_le.2 ?_) (hR0 b)
      rw [e, List.length_cons]
      omega
    have hen : EnergiesOf ph field err (fun b => slack b + (m + 1 : Nat) * R b) bs ref (l1.take nbound) (l1.take nbound) := by
      have he := st.energies
      unfold passEnergies at he
      cases corr with
      | none =>
        have h2R : ∀ b ∈ bs, slack b + 2 * R b ≤ slack b + (m + 1 : Nat) * R b := by
          intro b _
          have : (2 : K) * R b ≤ (m + 1 : Nat) * R b := mul_le_mul_of_nonneg_right (by exact_mod_cast (show 2 ≤ m + 1 by omega)) (hR0 b)
          linarith
        refine energies_mono h2R (full_sampled hfl hex hm hv he ?_ hRc)
        rcases st.next with ⟨_, e, _⟩ | ⟨_, _, e, _⟩ | ⟨_, _, tl, e, _⟩
        · exact hsl rfl [] _ [] e (by simp)
        · exact hsl rfl [] _ [] e (by simp)
        · exact hsl rfl [] _ tl e (by simp)
      | some old =>
        obtain ⟨h3, h4⟩ := hcorr old rfl
        refine energies_mono (fun b _ => ?_) (correct_rounded hfl hex hm hnn (additive old ref h3 ?_) h4 he hRc)
        · push_cast
          linarith
        have : ∃ q tl, tr = q :: tl ∧ q.frame = ref := by
          rcases st.next with ⟨_, e, _⟩ | ⟨_, _, e, _⟩ | ⟨_, _, tl, e, _⟩ <;> exact ⟨_, _, e, rfl⟩
        obtain ⟨q, tl, e, rfl⟩ := this
        exact hfr q (by rw [e]; exact List.mem_cons_self)
    have hL := reordered hs (by omega) st.part
    rw [← st.def_] at hL
    obtain ⟨hle, hr1, hLl, hLt, hLp, hLd, _, _, _⟩ := hL
    have single : ∀ q, tr = [q] → q = p ∧ pre = [] := by
      intro q e
      rw [e] at htr
      cases pre with
      | nil => simp at htr; exact ⟨htr.1, rfl⟩
      | cons a pre => simp at htr
    rcases st.next with ⟨_, e, _⟩ | ⟨_, _, e, _⟩ | ⟨_, _, tr', e, hrun⟩
    · obtain ⟨rfl, _⟩ := single _ e
      exact energies_mono (fun b _ => by have := hmlt b; linarith) hen
    · obtain ⟨rfl, _⟩ := single _ e
      exact energies_mono (fun b _ => by have := hmlt b; linarith) hen
    · cases pre with
      | nil =>
        rw [e, List.nil_append] at htr
        injection htr with h5 h6
        subst h5
        exact energies_mono (fun b _ => by have := hmlt b; linarith) hen
      | cons q pre =>
        rw [e, List.cons_append] at htr
        injection htr with h5 h6
        have hqp : q = ⟨ref, l1.take nbound, nb⟩ := h5.symm
        have hslow : Pass.Slow cfg q ↔ nbound - nb < nb ∧ (cfg.maxSample = 0 ∨ nbound - nb < cfg.maxSample) := by
          rw [hqp]
          unfold Pass.Slow
          simp only [List.length_take]
          rw [min_eq_left (by omega)]
        obtain ⟨hq1, hpw'⟩ := List.pairwise_cons.1 hpw
        have hLl1 : (L.map PE.pid).Perm (l.map PE.pid) := by
          rw [← hpid, ← List.take_append_drop nbound L, ← List.take_append_drop nbound l1, hLd]
          exact (hLp.append_right _).map _
        have hlast : m + tr.length = m + 1 + tr'.length := by
          rw [e, List.length_cons]
          omega
        rw [hlast]
        refine ih _ (m + 1) _ _ _ _ _ _ _ hrun (fun x hx => ?_) hle (by omega) (fun p hp => hRs p (by rw [e]; exact List.mem_cons_of_mem _ hp)) ?_ ?_ (fun p hp => hfr p (by rw [e]; exact List.mem_cons_of_mem _ hp)) pre p post h6 hpw' ?_
        · obtain ⟨x', hx', h'⟩ := List.mem_map.1 (hLl1.mem_iff.1 (List.mem_map_of_mem hx))
          rw [← h']
          exact hv x' hx'
        · intro old ho
          split at ho
          · cases ho
            refine ⟨hfr ⟨ref, l1.take nbound, nb⟩ (by rw [e]; exact List.mem_cons_self), ?_⟩
            intro x hx b others hb hperm
            rw [hLt] at hx
            have hx1 : x ∈ l1.take nbound := by
              have h7 : x ∈ L.take nbound := by
                rw [← hLt] at hx
                exact (List.take_sublist_take_left (l := L) hle).subset hx
              exact hLp.mem_iff.1 h7
            exact hen x hx1 b others hb (hperm.trans (members_perm bs hLp))
          · rename_i hc
            exfalso
            exact hc (hslow.1 (hq (by rw [ho]; simp) q List.mem_cons_self))
        · intro hnone pre' p' post' e' hpre'
          split at hnone
          · cases hnone
          · rename_i hc
            refine hsl hnone (q :: pre') p' post' ?_ ?_
            · rw [e, h5, e']
              rfl
            · intro q' hq'
              rcases List.mem_cons.1 hq' with rfl | hq'
              · exact fun hs' => hc (hslow.1 hs')
              · exact hpre' q' hq'
        · intro hc q' hq'
          split at hc
          · rename_i hc'
            exact hq1 q' hq' (hslow.2 hc')
          · exact hq hc q' (List.mem_cons_of_mem _ hq')

omit [Field K] [LinearOrder K] [IsStrictOrderedRing K] in
theorem pickAll_filterMap {α : Type} {ps : List α} : ∀ {is : List Nat} {out : List α}, pickAll ps is = .ok out → out = is.filterMap (fun i => ps[i]?) := by
  intro is
  induction is with
  | nil => intro out h; cases h; rfl
  | cons i is ih =>
    intro out h
    rw [pickAll] at h
    obtain ⟨x, hx, h⟩ := bind_ok_inv h
    obtain ⟨xs, hxs, h⟩ := bind_ok_inv h
    cases h
    rw [List.filterMap_cons, get_inv hx, ih hxs]

theorem range_pick {α : Type} (l : List α) : ∀ n, n ≤ l.length → (List.range n).filterMap (fun i => l[i]?) = l.take n := by
  intro n
  induction n with
  | zero => intro _; simp
  | succ n ih =>
    intro hn
    rw [List.range_succ, List.filterMap_append, ih (by omega), List.take_add_one, List.getElem?_eq_getElem (by omega)]
    simp [List.getElem?_eq_getElem (show n < l.length by omega)]

omit [IsStrictOrderedRing K] in
/-- Sorting the first entries anew keeps what they are. -/
theorem refine_perm {ph : Physics K} {sortE : List (PE K) → List (PE K)} (hs : ∀ l, (sortE l).Perm l) {bs : List (Body K)} {k size : Nat} {ref : Frame K}
    {l l' : List (PE K)} (h : refineEnergies ph sortE bs k size ref l = .ok l') (nb : Nat) (hnb : size ≤ nb) (hlen : nb ≤ l.length) :
    (l'.take nb).Perm (l.take nb) := by
  unfold refineEnergies at h
  split at h
  · cases h
  · rename_i hsz
    obtain ⟨tree, _, h⟩ := bind_ok_inv h
    obtain ⟨pot, _, h⟩ := bind_ok_inv h
    obtain ⟨inner, hin, h⟩ := bind_ok_inv h
    obtain ⟨front, hfront, h⟩ := bind_ok_inv h
    have hl : inner.length = size := by
      rw [updateFirst_length hin, List.length_take]; omega
    have hpids : ((sortE (inner.mapIdx (fun i x => (⟨i, x.e⟩ : PE K)))).map PE.pid).Perm (List.range size) := by
      refine ((hs _).map PE.pid).trans (List.Perm.of_eq ?_)
      apply List.ext_getElem
      · simp [hl]
      · intro i h1 h2
        simp
    have hf : front.Perm (l.take size) := by
      rw [pickAll_filterMap hfront, ← range_pick l size (by omega)]
      exact hpids.filterMap _
    have hfl : front.length = size := by
      rw [hf.length_eq, List.length_take]; omega
    cases h
    have e : l.take nb = l.take size ++ (l.drop size).take (nb - size) := by
      rw [← List.take_append_drop size (l.take nb), List.take_take, Nat.min_eq_left hnb, List.drop_take]
    rw [e, List.take_append, List.take_of_length_le (by omega), hfl]
    exact hf.append_right _

/-- As `passes_unbinds`, with samples. -/
theorem passes_sampled {cfg : UnbindConfig} {ph : Physics K} {field err : (Fin 3 → K) → Weighted K → K} {slack : Body K → K}
    {sortE : List (PE K) → List (PE K)} (hs : ∀ l, (sortE l).Perm l) {bs : List (Body K)} {Centre : List (Body K) → Frame K → Prop} (hmin : 0 < cfg.minNum)
    (herr : ∀ b ∈ bs, ∀ o ∈ bs, 0 ≤ err b.pos (o.mass, o.pos))
    (hc : ∀ ref kept kept', kept ≠ [] → kept.Perm kept' → (∀ b ∈ kept, b ∈ bs) → Centre kept' (frameOf ph ref kept)) :
    ∀ (fuel k : Nat) (corr : Option (Frame K)) (ref : Frame K) (l : List (PE K)) (nlast nbound : Nat) (tr : List (Pass K))
      (res : Option (List (PE K) × Nat × Frame K)),
      unbindPasses cfg ph sortE bs fuel k corr ref l nlast nbound = .ok (tr, res) →
      (∀ e ∈ l, e.pid < bs.length) → (∀ p ∈ tr, EnergiesOf ph field err slack bs p.frame p.list p.list) →
      UnbindsWithin slack (specificEnergy (Physics.away ph) field (ph.hz * ph.scale) ph.withThermal) Centre cfg.minNum (Enough cfg) ref (entryBodies bs (l.take nbound))
        (res.map (fun r => (entryBodies bs (r.1.take r.2.1), r.2.2))) := by
  intro fuel
  induction fuel with
  | zero => intro k corr ref l nlast nbound tr res h; cases h
  | succ fuel ih =>
    intro k corr ref l nlast nbound tr res h hval hen
    obtain ⟨l1, r1, L, nb, st⟩ := step_of h
    obtain ⟨hnl, hpid, hdrop, hlen⟩ := st.shape
    have hL := reordered hs (by omega) st.part
    rw [← st.def_] at hL
    obtain ⟨hle, hr1, hLl, hLt, hLp, hLd, hparts, hbound, hunbound⟩ := hL
    have hen1 : EnergiesOf ph field err slack bs ref (l1.take nbound) (l1.take nbound) := by
      rcases st.next with ⟨_, e, _⟩ | ⟨_, _, e, _⟩ | ⟨_, _, tl, e, _⟩ <;>
        exact hen ⟨ref, l1.take nbound, nb⟩ (by rw [e]; exact List.mem_cons_self)
    have hval1 : ∀ e ∈ l1, e.pid < bs.length := by
      intro e he
      have : e.pid ∈ l1.map PE.pid := List.mem_map_of_mem he
      rw [hpid] at this
      obtain ⟨e', he', h'⟩ := List.mem_map.1 this
      rw [← h']
      exact hval e' he'
    have hmem : entryBodies bs (l.take nbound) = entryBodies bs (l1.take nbound) := by
      rw [members_map, members_map, List.map_take, List.map_take, hpid]
    have hlen1 : (entryBodies bs (l1.take nbound)).length = nbound := by
      rw [members_length (fun e he => hval1 e (List.mem_of_mem_take he)), List.length_take]; omega
    have hvalL : ∀ e ∈ L, e.pid < bs.length := by
      intro e he
      rw [← List.take_append_drop nbound L, hLd, List.mem_append, hLp.mem_iff, ← List.mem_append, List.take_append_drop] at he
      exact hval1 e he
    have hlenk : (entryBodies bs (L.take nb)).length = nb := by
      rw [members_length (fun e he => hvalL e (List.mem_of_mem_take he)), List.length_take]; omega
    have hnon : ∀ e ∈ l1.take nbound, ∀ b others, bs[e.pid]? = some b → (b :: others).Perm (entryBodies bs (l1.take nbound)) → 0 ≤ sumOf err b.pos others := by
      intro e _ b others hb ho
      refine List.sum_nonneg (fun a ha => ?_)
      obtain ⟨o, hmo, rfl⟩ := List.mem_map.1 ha
      obtain ⟨_, _, hmo⟩ := mem_members (ho.mem_iff.1 (List.mem_cons_of_mem _ hmo))
      exact herr b (List.mem_of_getElem? hb) o (List.mem_of_getElem? hmo)
    have split : ∀ kept, kept.Perm (entryBodies bs (L.take nb)) →
        SplitWithin slack (specificEnergy (Physics.away ph) field (ph.hz * ph.scale) ph.withThermal ref) (entryBodies bs (l.take nbound))
        kept (entryBodies bs ((r1.take nbound).drop nb)) := by
      intro kept hk
      rw [hmem]
      refine ⟨?_, ?_, ?_⟩
      · refine (hk.append_right _).trans ?_
        rw [← members_append, hLt]
        exact members_perm bs hparts
      · intro b hb others ho
        rw [hk.mem_iff, hLt] at hb
        obtain ⟨e, he, hb⟩ := mem_members hb
        have he1 : e ∈ l1.take nbound := hparts.mem_iff.1 (List.mem_append_left _ he)
        have h9 := hen1 e he1 b others hb ho
        have h10 := hnon e he1 b others hb ho
        have h11 := hbound e he
        have h12 := neg_abs_le (e.e - specificEnergy (Physics.away ph) field (ph.hz * ph.scale) ph.withThermal ref others b)
        linarith
      · intro b hb others ho
        obtain ⟨e, he, hb⟩ := mem_members hb
        have he1 : e ∈ l1.take nbound := hparts.mem_iff.1 (List.mem_append_right _ he)
        have h9 := hen1 e he1 b others hb ho
        have h10 := hnon e he1 b others hb ho
        have h11 := hunbound e he
        have h12 := le_abs_self (e.e - specificEnergy (Physics.away ph) field (ph.hz * ph.scale) ph.withThermal ref others b)
        linarith
    have hinbs : ∀ b ∈ entryBodies bs (L.take nb), b ∈ bs := fun b hb => by
      obtain ⟨e, _, hb⟩ := mem_members hb
      exact List.mem_of_getElem? hb
    rcases st.next with ⟨hfew, e, hres⟩ | ⟨hmany, hconv, e, l', hres, hl'⟩ | ⟨hmany, hconv, tr', e, hrun⟩
    · rw [hres]
      exact .disrupted (split _ (List.Perm.refl _)) (by rw [hlenk]; exact hfew)
    · have hne : entryBodies bs (L.take nb) ≠ [] := by
        intro h0
        rw [h0] at hlenk
        simp at hlenk
        omega
      have h8 : (sortE (L.take nb)).length = nb := by rw [(hs _).length_eq, List.length_take]; omega
      have htake : (sortE (L.take nb) ++ L.drop nb).take nb = sortE (L.take nb) := by
        rw [List.take_append_of_le_length (by omega), List.take_of_length_le (by omega)]
      have hpermE : (l'.take nb).Perm (L.take nb) := by
        split at hl'
        · rename_i hr
          have := refine_perm hs hl' nb (by omega) (by rw [List.length_append, h8]; omega)
          rw [htake] at this
          exact this.trans (hs _)
        · injection hl' with hl'
          rw [← hl', htake]
          exact hs _
      have hperm : (entryBodies bs (l'.take nb)).Perm (entryBodies bs (L.take nb)) := members_perm bs hpermE
      rw [hres]
      refine .converged (split _ hperm) ?_ ?_ (hc _ _ _ hne hperm.symm hinbs)
      · rw [hperm.length_eq, hlenk]; omega
      · rw [hperm.length_eq, hlenk, hmem, hlen1]; exact hconv
    · have hne : entryBodies bs (L.take nb) ≠ [] := by
        intro h0
        rw [h0] at hlenk
        simp at hlenk
        omega
      refine .again (split _ (List.Perm.refl _)) (by rw [hlenk]; omega) ?_ (hc _ _ _ hne (List.Perm.refl _) hinbs)
        (ih _ _ _ _ _ _ _ _ hrun hvalL (fun p hp => hen p (by rw [e]; exact List.mem_cons_of_mem _ hp)))
      rw [hlenk, hmem, hlen1]; exact hconv

/-- As `unbinds_core`, with samples and rounding. -/
theorem sampled_core {cfg : UnbindConfig} {ph : Physics K} {u : K} {R : Body K → K} (hfl : RoundsWithin ph.fl u) (hR0 : ∀ b, 0 ≤ R b) {dom : (Fin 3 → K) → Prop} {field err : (Fin 3 → K) → Weighted K → K}
    {slack : Body K → K} (hex : NearGravity ph.solve dom field err) {sortE : List (PE K) → List (PE K)} (hs : ∀ l, (sortE l).Perm l)
    {bs : List (Body K)} (hm : ∀ b ∈ bs, 0 < b.mass ∧ dom b.pos) (hmin : 0 < cfg.minNum) (frames : Frame K → Prop)
    (additive : ∀ f g, frames f → frames g → ∀ b ∈ bs, ∀ d,
      Physics.away ph b.pos g.pos d = Physics.away ph b.pos f.pos d + Physics.away ph f.pos g.pos d)
    (hF : ∀ ref kept, kept ≠ [] → (∀ b ∈ kept, b ∈ bs) → frames (frameOf ph ref kept)) {Centre : List (Body K) → Frame K → Prop}
    (hc : ∀ ref kept kept', kept ≠ [] → kept.Perm kept' → (∀ b ∈ kept, b ∈ bs) → Centre kept' (frameOf ph ref kept))
    {fuel : Nat} {ref : Frame K} (href : frames ref) {l : List (PE K)} (hl : l.map PE.pid = List.range bs.length) {tr : List (Pass K)}
    {res : Option (List (PE K) × Nat × Frame K)} (h : unbindPasses cfg ph sortE bs fuel 0 none ref l bs.length bs.length = .ok (tr, res))
    (hbr : tr.dropLast.Pairwise (fun p q => Pass.Slow cfg p → Pass.Slow cfg q))
    (hRs : ∀ p ∈ tr, RoundingOf ph u R bs p.list)
    (hsl : ∀ pre p post, tr = pre ++ p :: post → (∀ q ∈ pre, ¬ Pass.Slow cfg q) → SampleWithin field err slack cfg.maxSample (entryBodies bs p.list)) :
    UnbindsWithin (fun b => slack b + (1 + tr.length : Nat) * R b) (specificEnergy (Physics.away ph) field (ph.hz * ph.scale) ph.withThermal) Centre cfg.minNum (Enough cfg) ref bs
        (res.map (fun r => (entryBodies bs (r.1.take r.2.1), r.2.2))) := by
  have hval : ∀ e ∈ l, e.pid < bs.length := by
    intro e he
    have : e.pid ∈ l.map PE.pid := List.mem_map_of_mem he
    rw [hl] at this
    exact List.mem_range.1 this
  have hll : l.length = bs.length := by
    have := congrArg List.length hl
    simpa using this
  have hfr := passes_frames hs hmin frames hF _ _ _ _ _ _ _ _ _ h hval href
  have hen : ∀ p ∈ tr, EnergiesOf ph field err (fun b => slack b + (1 + tr.length : Nat) * R b) bs p.frame p.list p.list := by
    intro p hp
    obtain ⟨pre, post, e⟩ := List.append_of_mem hp
    refine energies_sampled hfl hR0 hex hs hm frames additive _ _ 1 _ _ _ _ _ _ _ h hval le_rfl le_rfl hRs (fun _ h => by cases h) (fun _ => hsl) hfr pre p post e ?_ (fun h => absurd rfl h)
    refine hbr.sublist ?_
    rw [e, List.dropLast_append_of_ne_nil (by simp)]
    exact List.sublist_append_left _ _
  have := passes_sampled hs hmin (fun b hb o ho => hex.nonneg _ _ (hm b hb).2 (hm o ho).2 (hm o ho).1) hc _ _ _ _ _ _ _ _ _ h hval hen
  have e : entryBodies bs (l.take bs.length) = bs := by
    rw [members_map, List.map_take, hl, List.take_of_length_le (by simp), range_bodies]
  rw [e] at this
  exact this

/-- Unbinding does not depend on the order of the bodies. -/
theorem unbinds_perm {slack : Body K → K} {energy : Frame K → List (Body K) → Body K → K} {Centre : List (Body K) → Frame K → Prop} {minNum : Nat}
    {enough : Nat → Nat → Prop} {f : Frame K} {l l' : List (Body K)} {r : Option (List (Body K) × Frame K)} (hp : l.Perm l')
    (h : UnbindsWithin slack energy Centre minNum enough f l r) : UnbindsWithin slack energy Centre minNum enough f l' r := by
  have split : ∀ {kept gone}, SplitWithin slack (energy f) l kept gone → SplitWithin slack (energy f) l' kept gone := fun h =>
    ⟨h.parts.trans hp, fun b hb o ho => h.bound b hb o (ho.trans hp.symm), fun b hb o ho => h.unbound b hb o (ho.trans hp.symm)⟩
  cases h with
  | disrupted hs few => exact .disrupted (split hs) few
  | converged hs many en ce => exact .converged (split hs) many (by rw [← hp.length_eq]; exact en) ce
  | again hs many more ce rest => exact .again (split hs) many (by rw [← hp.length_eq]; exact more) ce rest

/-- As `bodies_run`, with samples. `qs` are the particles in the order at the start of the loop. -/
theorem bodies_run_sampled {cfg : UnbindConfig} {ph : Physics K} {sortE : List (PE K) → List (PE K)} {shuffle : List (Particle D) → List (Particle D)}
    {junk : Nat → K} {way : Nat} {body : D → Body K} {fuel : Nat} {snap : Int} {ref : Frame K} {s s' : Sub K D} {f : Option (Frame K)} {tr : List (Pass K)}
    (h : unbindBodies cfg ph sortE shuffle junk way body fuel snap ref s = .ok (s', f, tr)) (hn : 2 ≤ s.particles.length)
    (hsh : ∀ l, (shuffle l).Perm l) (hsnap : snap ≠ nullSnap) {qs : List (Particle D)}
    (hqs : qs = if 0 < cfg.maxSample ∧ cfg.maxSample < s.particles.length then shuffle s.particles else s.particles) :
    ∃ res, unbindPasses cfg ph sortE (bodiesOf body qs) fuel 0 none ref
        ((List.range (bodiesOf body qs).length).map (fun i => ⟨i, junk i⟩)) (bodiesOf body qs).length (bodiesOf body qs).length = .ok (tr, res) ∧
      ((res = none ∧ f = none ∧ s'.nbound = 1 ∧ s'.snapDeath ≠ nullSnap) ∨
        ∃ l nb g, res = some (l, nb, g) ∧ f = some g ∧ s'.snapDeath = nullSnap ∧
          bodiesOf body (s'.particles.take s'.nbound) = entryBodies (bodiesOf body qs) (l.take nb)) := by
  unfold unbindBodies at h
  simp only at h
  have hps : (if s.particles.length < cfg.minNum then die snap s else s).particles = s.particles := by
    unfold die
    split_ifs <;> rfl
  rw [hps] at h
  rcases hs : s.particles with _ | ⟨p0, _ | ⟨p1, ps⟩⟩
  · rw [hs] at hn; simp at hn
  · rw [hs] at hn; simp at hn
  · rw [hs] at h
    simp only at h
    rw [← hs, ← hqs] at h
    obtain ⟨⟨tr', res⟩, hrun, h⟩ := bind_ok_inv h
    have hlen : (bodiesOf body qs).length = s.particles.length := by
      unfold bodiesOf
      rw [List.length_map, hqs]
      split
      · exact (hsh _).length_eq
      · rfl
    cases res with
    | none =>
      simp only at h
      obtain ⟨ps', _, h⟩ := bind_ok_inv h
      cases h
      refine ⟨none, by rw [hlen]; exact hrun, Or.inl ⟨rfl, rfl, rfl, ?_⟩⟩
      unfold setBound die Sub.withParticles
      simp only
      split_ifs <;> simp_all
    | some r =>
      obtain ⟨l, nb, g⟩ := r
      simp only at h
      obtain ⟨ps', hpick, h⟩ := bind_ok_inv h
      cases h
      refine ⟨some (l, nb, g), by rw [hlen]; exact hrun, Or.inr ⟨l, nb, g, rfl, rfl, rfl, ?_⟩⟩
      have h1 := picked_bodies (body := body) hpick
      have h2 := pickAll_length hpick
      rw [entryBodies_take (by rw [← h1]; simpa using h2), ← h1]
      exact List.map_take


/-- C80. Unbinding with potentials of samples and energies that are rounded is iterative unbinding, with energies that are wrong by no more than the samples taken are (`hsl`) and by the
rounding of as many energies as there were iterations, and one (`hRs`), in free space. -/
theorem C80_unbinding_rounded (cfg : UnbindConfig) (ph : Physics K) (hper : ph.periodic = false) (u : K) (hfl : RoundsWithin ph.fl u)
    (dom : (Fin 3 → K) → Prop) (field err : (Fin 3 → K) → K × (Fin 3 → K) → K) (hex : NearGravity ph.solve dom field err) (slack R : Body K → K) (hR0 : ∀ b, 0 ≤ R b)
    (sortE : List (PE K) → List (PE K)) (hs : ∀ l, (sortE l).Perm l) (shuffle : List (Particle D) → List (Particle D)) (hsh : ∀ l, (shuffle l).Perm l) (junk : Nat → K) (way : Nat)
    (body : D → Body K) (fuel : Nat) (snap : Int) (hsnap : snap ≠ nullSnap) (ref : Frame K) (s s' : Sub K D) (f : Option (Frame K)) (tr : List (Pass K))
    (h : unbindBodies cfg ph sortE shuffle junk way body fuel snap ref s = .ok (s', f, tr)) (hn : 2 ≤ s.particles.length)
    (hm : ∀ b ∈ bodiesOf body s.particles, 0 < b.mass ∧ dom b.pos)
    (hmin : 0 < cfg.minNum) (qs : List (Particle D))
    (hqs : qs = if 0 < cfg.maxSample ∧ cfg.maxSample < s.particles.length then shuffle s.particles else s.particles)
    (hbr : tr.dropLast.Pairwise (fun p q => Pass.Slow cfg p → Pass.Slow cfg q))
    (hRs : ∀ p ∈ tr, RoundingOf ph u R (bodiesOf body qs) p.list)
    (hsl : ∀ pre p post, tr = pre ++ p :: post → (∀ q ∈ pre, ¬ Pass.Slow cfg q) →
      SampleWithin field err slack cfg.maxSample (entryBodies (bodiesOf body qs) p.list)) :
    (UnbindsWithin (fun b => slack b + (1 + tr.length : Nat) * R b) (specificEnergy (fun x y d => x d - y d) field (ph.hz * ph.scale) ph.withThermal) CentreOf cfg.minNum (Enough cfg) ref
        (bodiesOf body s.particles) none ∧ f = none ∧ s'.nbound = 1 ∧ s'.snapDeath ≠ nullSnap) ∨
    ∃ g, UnbindsWithin (fun b => slack b + (1 + tr.length : Nat) * R b) (specificEnergy (fun x y d => x d - y d) field (ph.hz * ph.scale) ph.withThermal) CentreOf cfg.minNum (Enough cfg) ref
        (bodiesOf body s.particles) (some (bodiesOf body (s'.particles.take s'.nbound), g)) ∧ f = some g ∧ s'.snapDeath = nullSnap := by
  have haway : Physics.away ph = fun x y d => x d - y d := by
    funext x y d
    simp [Physics.away, treeOffset, hper]
  have hperm : (bodiesOf body qs).Perm (bodiesOf body s.particles) := by
    unfold bodiesOf
    rw [hqs]
    split
    · exact (hsh _).map _
    · exact List.Perm.refl _
  have hmq : ∀ b ∈ bodiesOf body qs, b ∈ bodiesOf body s.particles := fun b hb => hperm.mem_iff.1 hb
  obtain ⟨res, hrun, hres⟩ := bodies_run_sampled h hn hsh hsnap hqs
  have hcentre : ∀ ref kept, kept ≠ [] → (∀ b ∈ kept, b ∈ bodiesOf body s.particles) → CentreOf kept (frameOf ph ref kept) := by
    intro ref kept hne hin
    have hmass : ∀ g : Body K → Fin 3 → K, ∀ p ∈ kept.map (fun b => (b.mass, g b)), 0 < p.1 := fun g p hp => by
      obtain ⟨b, hb, rfl⟩ := List.mem_map.1 hp
      exact (hm b (hin b hb)).1
    have hpos : ∀ g : Body K → Fin 3 → K, massSum (kept.map (fun b => (b.mass, g b))) ≠ 0 := fun g =>
      ne_of_gt (massSum_pos _ (by simpa using hne) (hmass g))
    constructor
    · unfold frameOf
      simp only [hper]
      rw [averagePosition_free _ _ _ (by simpa using hne) (hpos _)]
    · unfold frameOf
      simp only
      rw [C53_velocity _ (kept.map (fun b => (b.mass, b.vel))) (by simpa using hne) (hmass _)]
  have := sampled_core hfl hR0 hex hs (fun b hb => hm b (hmq b hb)) hmin (fun _ => True) (fun f g _ _ b _ d => by rw [haway]; ring) (fun _ _ _ _ => trivial)
    (Centre := CentreOf) (fun ref kept kept' hne hp hin => by
      obtain ⟨h1, h2⟩ := hcentre ref kept hne (fun b hb => hmq b (hin b hb))
      exact ⟨h1.trans (massMean_perm (hp.map _)), h2.trans (massMean_perm (hp.map _))⟩) trivial (by rw [List.map_map]; simp [Function.comp_def]) hrun hbr hRs hsl
  rw [haway] at this
  rcases hres with ⟨rfl, hf, hb, hd⟩ | ⟨l, nb, g, rfl, hf, hd, hbod⟩
  · exact Or.inl ⟨unbinds_perm hperm this, hf, hb, hd⟩
  · refine Or.inr ⟨g, ?_, hf, hd⟩
    rw [hbod]
    exact unbinds_perm hperm this

/-- C80. Unbinding with potentials of samples is iterative unbinding, with energies that are wrong by no more than the samples taken are (`hsl`), in free space. -/
theorem C80_unbinding (cfg : UnbindConfig) (ph : Physics K) (hper : ph.periodic = false) (hfl : ph.fl = id)
    (dom : (Fin 3 → K) → Prop) (field err : (Fin 3 → K) → K × (Fin 3 → K) → K) (hex : NearGravity ph.solve dom field err) (slack : Body K → K)
    (sortE : List (PE K) → List (PE K)) (hs : ∀ l, (sortE l).Perm l) (shuffle : List (Particle D) → List (Particle D)) (hsh : ∀ l, (shuffle l).Perm l) (junk : Nat → K) (way : Nat)
    (body : D → Body K) (fuel : Nat) (snap : Int) (hsnap : snap ≠ nullSnap) (ref : Frame K) (s s' : Sub K D) (f : Option (Frame K)) (tr : List (Pass K))
    (h : unbindBodies cfg ph sortE shuffle junk way body fuel snap ref s = .ok (s', f, tr)) (hn : 2 ≤ s.particles.length)
    (hm : ∀ b ∈ bodiesOf body s.particles, 0 < b.mass ∧ dom b.pos)
    (hmin : 0 < cfg.minNum) (qs : List (Particle D))
    (hqs : qs = if 0 < cfg.maxSample ∧ cfg.maxSample < s.particles.length then shuffle s.particles else s.particles)
    (hbr : tr.dropLast.Pairwise (fun p q => Pass.Slow cfg p → Pass.Slow cfg q))
    (hsl : ∀ pre p post, tr = pre ++ p :: post → (∀ q ∈ pre, ¬ Pass.Slow cfg q) →
      SampleWithin field err slack cfg.maxSample (entryBodies (bodiesOf body qs) p.list)) :
    (UnbindsWithin slack (specificEnergy (fun x y d => x d - y d) field (ph.hz * ph.scale) ph.withThermal) CentreOf cfg.minNum (Enough cfg) ref
        (bodiesOf body s.particles) none ∧ f = none ∧ s'.nbound = 1 ∧ s'.snapDeath ≠ nullSnap) ∨
    ∃ g, UnbindsWithin slack (specificEnergy (fun x y d => x d - y d) field (ph.hz * ph.scale) ph.withThermal) CentreOf cfg.minNum (Enough cfg) ref
        (bodiesOf body s.particles) (some (bodiesOf body (s'.particles.take s'.nbound), g)) ∧ f = some g ∧ s'.snapDeath = nullSnap := by
  have hround : RoundsWithin ph.fl 0 := ⟨le_rfl, fun v => by rw [hfl]; simp⟩
  have hRs : ∀ p ∈ tr, RoundingOf ph 0 (fun _ => 0) (bodiesOf body qs) p.list := fun p _ e _ b _ => by simp
  simpa only [mul_zero, add_zero] using C80_unbinding_rounded cfg ph hper 0 hround dom field err hex slack (fun _ => 0) (fun _ => le_rfl) sortE hs shuffle hsh junk way body fuel snap hsnap ref s s' f tr h hn hm hmin qs hqs hbr hRs hsl

/-- C80, as `C80_unbinding_rounded`, in a periodic box. -/
theorem C80_unbinding_rounded_periodic (cfg : UnbindConfig) (ph : Physics K) (hper : ph.periodic = true) (hB : 0 < ph.boxsize) (u : K) (hfl : RoundsWithin ph.fl u)
    (dom : (Fin 3 → K) → Prop) (field err : (Fin 3 → K) → K × (Fin 3 → K) → K) (hex : NearGravity ph.solve dom field err) (slack R : Body K → K) (hR0 : ∀ b, 0 ≤ R b)
    (sortE : List (PE K) → List (PE K)) (hs : ∀ l, (sortE l).Perm l) (shuffle : List (Particle D) → List (Particle D)) (hsh : ∀ l, (shuffle l).Perm l) (junk : Nat → K) (way : Nat)
    (body : D → Body K) (fuel : Nat) (snap : Int) (hsnap : snap ≠ nullSnap) (ref : Frame K) (s s' : Sub K D) (f : Option (Frame K)) (tr : List (Pass K))
    (turns : (Fin 3 → K) → Fin 3 → ℤ) (free : (Fin 3 → K) → Fin 3 → K) (hfree : ∀ x j, x j = free x j + turns x j * ph.boxsize) (c : Fin 3 → K)
    (hnear : ∀ x ∈ ref.pos :: (bodiesOf body s.particles).map Body.pos, ∀ j, |free x j - c j| < ph.boxsize / 4)
    (hbox : ∀ x ∈ ref.pos :: (bodiesOf body s.particles).map Body.pos, ∀ y ∈ ref.pos :: (bodiesOf body s.particles).map Body.pos, ∀ j,
      |turns x j - turns y j| ≤ 1)
    (h : unbindBodies cfg ph sortE shuffle junk way body fuel snap ref s = .ok (s', f, tr)) (hn : 2 ≤ s.particles.length)
    (hm : ∀ b ∈ bodiesOf body s.particles, 0 < b.mass ∧ dom b.pos)
    (hmin : 0 < cfg.minNum) (qs : List (Particle D))
    (hqs : qs = if 0 < cfg.maxSample ∧ cfg.maxSample < s.particles.length then shuffle s.particles else s.particles)
    (hbr : tr.dropLast.Pairwise (fun p q => Pass.Slow cfg p → Pass.Slow cfg q))
    (hRs : ∀ p ∈ tr, RoundingOf ph u R (bodiesOf body qs) p.list)
    (hsl : ∀ pre p post, tr = pre ++ p :: post → (∀ q ∈ pre, ¬ Pass.Slow cfg q) →
      SampleWithin field err slack cfg.maxSample (entryBodies (bodiesOf body qs) p.list)) :
    (UnbindsWithin (fun b => slack b + (1 + tr.length : Nat) * R b) (specificEnergy (fun x y d => nearest ph.boxsize (x d - y d)) field (ph.hz * ph.scale) ph.withThermal) (CentreInBox ph.boxsize free) cfg.minNum
        (Enough cfg) ref (bodiesOf body s.particles) none ∧ f = none ∧ s'.nbound = 1 ∧ s'.snapDeath ≠ nullSnap) ∨
    ∃ g, UnbindsWithin (fun b => slack b + (1 + tr.length : Nat) * R b) (specificEnergy (fun x y d => nearest ph.boxsize (x d - y d)) field (ph.hz * ph.scale) ph.withThermal) (CentreInBox ph.boxsize free) cfg.minNum
        (Enough cfg) ref (bodiesOf body s.particles) (some (bodiesOf body (s'.particles.take s'.nbound), g)) ∧ f = some g ∧ s'.snapDeath = nullSnap := by
  have haway : Physics.away ph = fun x y d => nearest ph.boxsize (x d - y d) := by
    funext x y d
    simp [Physics.away, treeOffset, hper]
  have hperm : (bodiesOf body qs).Perm (bodiesOf body s.particles) := by
    unfold bodiesOf
    rw [hqs]
    split
    · exact (hsh _).map _
    · exact List.Perm.refl _
  have hmq : ∀ b ∈ bodiesOf body qs, b ∈ bodiesOf body s.particles := fun b hb => hperm.mem_iff.1 hb
  obtain ⟨res, hrun, hres⟩ := bodies_run_sampled h hn hsh hsnap hqs
  have hbx : ∀ b ∈ bodiesOf body s.particles, b.pos ∈ ref.pos :: (bodiesOf body s.particles).map Body.pos :=
    fun b hb => List.mem_cons_of_mem _ (List.mem_map_of_mem hb)
  -- a frame is somewhere near `c`
  let place : Frame K → Prop := fun f => ∃ (y : Fin 3 → K) (x : Fin 3 → K), x ∈ ref.pos :: (bodiesOf body s.particles).map Body.pos ∧
    (∀ j, |y j - c j| < ph.boxsize / 4) ∧ ∀ j, f.pos j = y j + turns x j * ph.boxsize
  have hcentre : ∀ ref kept, kept ≠ [] → (∀ b ∈ kept, b ∈ bodiesOf body s.particles) →
      (∃ b ∈ kept, ∀ j, (frameOf ph ref kept).pos j = massMean (kept.map (fun b => (b.mass, free b.pos))) j + turns b.pos j * ph.boxsize) ∧
      (frameOf ph ref kept).vel = massMean (kept.map (fun b => (b.mass, b.vel))) := by
    intro ref kept hne hin
    have hmass : ∀ g : Body K → Fin 3 → K, ∀ p ∈ kept.map (fun b => (b.mass, g b)), 0 < p.1 := fun g p hp => by
      obtain ⟨b, hb, rfl⟩ := List.mem_map.1 hp
      exact (hm b (hin b hb)).1
    constructor
    · cases hk : kept with
      | nil => exact absurd hk hne
      | cons b0 rest =>
        refine ⟨b0, List.mem_cons_self, fun j => ?_⟩
        have key := averagePosition_box ph.boxsize hB ref.pos ⟨b0.mass, free b0.pos, turns b0.pos⟩
          (rest.map (fun b => ⟨b.mass, free b.pos, turns b.pos⟩)) (by
            intro p hp j
            have : p ∈ (b0 :: rest).map (fun b : Body K => (⟨b.mass, free b.pos, turns b.pos⟩ : BoxParticle K)) := by simpa using hp
            obtain ⟨b, hb, rfl⟩ := List.mem_map.1 this
            rw [← hk] at hb
            have h0 : b0 ∈ kept := by rw [hk]; exact List.mem_cons_self
            refine ⟨?_, hbox _ (hbx b (hin b hb)) _ (hbx b0 (hin b0 h0)) j⟩
            have a1 := abs_lt.1 (hnear _ (hbx b (hin b hb)) j)
            have a2 := abs_lt.1 (hnear _ (hbx b0 (hin b0 h0)) j)
            rw [abs_lt]
            constructor <;> simp only <;> linarith) (by
            have h5 := massSum_pos _ (by simpa using hne) (hmass (fun b => free b.pos))
            rw [hk] at h5
            simpa [BoxParticle.free, List.map_map, Function.comp_def] using ne_of_gt h5)
        have e1 : (({ mass := b0.mass, pos := free b0.pos, turns := turns b0.pos } : BoxParticle K) ::
            rest.map (fun b => (⟨b.mass, free b.pos, turns b.pos⟩ : BoxParticle K))).map (BoxParticle.seen ph.boxsize) =
            (b0 :: rest).map (fun b => (b.mass, b.pos)) := by
          simp only [List.map_cons, List.map_map, BoxParticle.seen, Function.comp_def, ← hfree]
        have e2 : (({ mass := b0.mass, pos := free b0.pos, turns := turns b0.pos } : BoxParticle K) ::
            rest.map (fun b => (⟨b.mass, free b.pos, turns b.pos⟩ : BoxParticle K))).map BoxParticle.free =
            (b0 :: rest).map (fun b => (b.mass, free b.pos)) := by
          simp only [List.map_cons, List.map_map, BoxParticle.free, Function.comp_def]
        rw [e1, e2] at key
        unfold frameOf
        simp only [hper]
        rw [key]
    · unfold frameOf
      simp only
      rw [C53_velocity _ (kept.map (fun b => (b.mass, b.vel))) (by simpa using hne) (hmass _)]
  have := sampled_core hfl hR0 hex hs (fun b hb => hm b (hmq b hb)) hmin place (by
      intro f g hf hg b hb d
      obtain ⟨yf, xf, hxf, hyf, hf⟩ := hf
      obtain ⟨yg, xg, hxg, hyg, hg⟩ := hg
      have hxb := hbx b (hmq b hb)
      have key : ∀ (p q : K) (t u : ℤ), |p - c d| < ph.boxsize / 4 → |q - c d| < ph.boxsize / 4 → |t - u| ≤ 1 →
          nearest ph.boxsize (p + t * ph.boxsize - (q + u * ph.boxsize)) = p - q := by
        intro p q t u hp hq htu
        have e : p + t * ph.boxsize - (q + u * ph.boxsize) = (p - q) + ((t - u : ℤ) : K) * ph.boxsize := by push_cast; ring
        rw [e, nearest_unwrap _ _ _ hB ?_ htu]
        have a1 := abs_lt.1 hp
        have a2 := abs_lt.1 hq
        rw [abs_lt]
        constructor <;> linarith
      rw [haway]
      simp only
      rw [hf d, hg d, hfree b.pos d, key _ _ _ _ (hnear _ hxb d) (hyg d) (hbox _ hxb _ hxg d), key _ _ _ _ (hnear _ hxb d) (hyf d) (hbox _ hxb _ hxf d),
        key _ _ _ _ (hyf d) (hyg d) (hbox _ hxf _ hxg d)]
      ring) (by
      intro ref' kept hne hin'
      have hin : ∀ b ∈ kept, b ∈ bodiesOf body s.particles := fun b hb => hmq b (hin' b hb)
      obtain ⟨⟨b, hb, hpos⟩, _⟩ := hcentre ref' kept hne hin
      refine ⟨_, b.pos, hbx b (hin b hb), fun j => ?_, hpos⟩
      refine mean_near _ (by simpa using hne) ?_ j (c j) _ ?_
      · intro p hp
        obtain ⟨b, hb, rfl⟩ := List.mem_map.1 hp
        exact (hm b (hin b hb)).1
      · intro p hp
        obtain ⟨b, hb, rfl⟩ := List.mem_map.1 hp
        exact hnear _ (hbx b (hin b hb)) j)
    (Centre := CentreInBox ph.boxsize free) (fun ref kept kept' hne hp hin => by
      obtain ⟨⟨b, _, h1⟩, h2⟩ := hcentre ref kept hne (fun b hb => hmq b (hin b hb))
      refine ⟨fun j => ⟨turns b.pos j, ?_⟩, h2.trans (massMean_perm (hp.map _))⟩
      rw [h1 j, massMean_perm (hp.map _)]) ⟨free ref.pos, ref.pos, List.mem_cons_self, hnear _ List.mem_cons_self, hfree _⟩
    (by rw [List.map_map]; simp [Function.comp_def]) hrun hbr hRs hsl
  rw [haway] at this
  rcases hres with ⟨rfl, hf, hb, hd⟩ | ⟨l, nb, g, rfl, hf, hd, hbod⟩
  · exact Or.inl ⟨unbinds_perm hperm this, hf, hb, hd⟩
  · refine Or.inr ⟨g, ?_, hf, hd⟩
    rw [hbod]
    exact unbinds_perm hperm this

/-- C80, as `C80_unbinding`, in a periodic box. -/
theorem C80_unbinding_periodic (cfg : UnbindConfig) (ph : Physics K) (hper : ph.periodic = true) (hB : 0 < ph.boxsize) (hfl : ph.fl = id)
    (dom : (Fin 3 → K) → Prop) (field err : (Fin 3 → K) → K × (Fin 3 → K) → K) (hex : NearGravity ph.solve dom field err) (slack : Body K → K)
    (sortE : List (PE K) → List (PE K)) (hs : ∀ l, (sortE l).Perm l) (shuffle : List (Particle D) → List (Particle D)) (hsh : ∀ l, (shuffle l).Perm l) (junk : Nat → K) (way : Nat)
    (body : D → Body K) (fuel : Nat) (snap : Int) (hsnap : snap ≠ nullSnap) (ref : Frame K) (s s' : Sub K D) (f : Option (Frame K)) (tr : List (Pass K))
    (turns : (Fin 3 → K) → Fin 3 → ℤ) (free : (Fin 3 → K) → Fin 3 → K) (hfree : ∀ x j, x j = free x j + turns x j * ph.boxsize) (c : Fin 3 → K)
    (hnear : ∀ x ∈ ref.pos :: (bodiesOf body s.particles).map Body.pos, ∀ j, |free x j - c j| < ph.boxsize / 4)
    (hbox : ∀ x ∈ ref.pos :: (bodiesOf body s.particles).map Body.pos, ∀ y ∈ ref.pos :: (bodiesOf body s.particles).map Body.pos, ∀ j,
      |turns x j - turns y j| ≤ 1)
    (h : unbindBodies cfg ph sortE shuffle junk way body fuel snap ref s = .ok (s', f, tr)) (hn : 2 ≤ s.particles.length)
    (hm : ∀ b ∈ bodiesOf body s.particles, 0 < b.mass ∧ dom b.pos)
    (hmin : 0 < cfg.minNum) (qs : List (Particle D))
    (hqs : qs = if 0 < cfg.maxSample ∧ cfg.maxSample < s.particles.length then shuffle s.particles else s.particles)
    (hbr : tr.dropLast.Pairwise (fun p q => Pass.Slow cfg p → Pass.Slow cfg q))
    (hsl : ∀ pre p post, tr = pre ++ p :: post → (∀ q ∈ pre, ¬ Pass.Slow cfg q) →
      SampleWithin field err slack cfg.maxSample (entryBodies (bodiesOf body qs) p.list)) :
    (UnbindsWithin slack (specificEnergy (fun x y d => nearest ph.boxsize (x d - y d)) field (ph.hz * ph.scale) ph.withThermal) (CentreInBox ph.boxsize free) cfg.minNum
        (Enough cfg) ref (bodiesOf body s.particles) none ∧ f = none ∧ s'.nbound = 1 ∧ s'.snapDeath ≠ nullSnap) ∨
    ∃ g, UnbindsWithin slack (specificEnergy (fun x y d => nearest ph.boxsize (x d - y d)) field (ph.hz * ph.scale) ph.withThermal) (CentreInBox ph.boxsize free) cfg.minNum
        (Enough cfg) ref (bodiesOf body s.particles) (some (bodiesOf body (s'.particles.take s'.nbound), g)) ∧ f = some g ∧ s'.snapDeath = nullSnap := by
  have hround : RoundsWithin ph.fl 0 := ⟨le_rfl, fun v => by rw [hfl]; simp⟩
  have hRs : ∀ p ∈ tr, RoundingOf ph 0 (fun _ => 0) (bodiesOf body qs) p.list := fun p _ e _ b _ => by simp
  simpa only [mul_zero, add_zero] using C80_unbinding_rounded_periodic cfg ph hper hB 0 hround dom field err hex slack (fun _ => 0) (fun _ => le_rfl) sortE hs shuffle hsh junk way body fuel snap hsnap ref s s' f tr turns free hfree c hnear hbox
    h hn hm hmin qs hqs hbr hRs hsl

end HBT.Props
