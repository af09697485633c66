import Verif.Lemmas.UnbindEnergy
import Verif.Props.OctTree
import Verif.Props.Average
import Verif.Props.Unbind
/-!
# C76: binding energies

In every iteration of unbinding the energies are those of the particles in the frame of the particles left. `Verif/Spec/Binding.lean` says what the
energy of a particle is.
-/
namespace HBT.Props
open HBT HBT.Model HBT.Spec HBT.UE HBT.OT
variable {K D : Type} [Field K] [LinearOrder K]
section Loop
variable [IsStrictOrderedRing K]

/-- The potential of bodies (masses and places) at `x`. -/
abbrev sumOf (field : (Fin 3 → K) → Weighted K → K) (x : Fin 3 → K) (l : List (Body K)) : K := (l.map (fun o => field x (o.mass, o.pos))).sum

/-- The solver of gravity gives the sum of the potentials `field` of single bodies of positive mass at places with `dom`, up to the sum of the errors `err`; for a
body of the tree, asked for with its own mass, that of the other bodies. -/
structure NearGravity (solve : Nat → List (Weighted K) → Outcome ((Fin 3 → K) → K → Outcome K)) (dom : (Fin 3 → K) → Prop)
    (field err : (Fin 3 → K) → Weighted K → K) : Prop where
  nonneg : ∀ x w, dom x → dom w.2 → 0 < w.1 → 0 ≤ err x w
  own : ∀ k bs others pot x m p, (∀ w ∈ bs, 0 < w.1 ∧ dom w.2) → ((m, x) :: others).Perm bs → solve k bs = .ok pot → pot x m = .ok p →
    |p - (others.map (field x)).sum| ≤ (others.map (err x)).sum
  away : ∀ k bs pot x p, (∀ w ∈ bs, 0 < w.1 ∧ dom w.2) → dom x → solve k bs = .ok pot → pot x 0 = .ok p →
    |p - (bs.map (field x)).sum| ≤ (bs.map (err x)).sum

/-- The solver of gravity adds up the potentials of single bodies of positive mass. For a body of mass `m` in the tree, `EvaluatePotential(x, m)` adds
`m` times `selfTerm`, which cancels what the body contributes to its own potential. -/
structure ExactGravity (solve : Nat → List (Weighted K) → Outcome ((Fin 3 → K) → K → Outcome K)) (field : (Fin 3 → K) → Weighted K → K) (selfTerm : K) : Prop where
  sum : ∀ k bs pot x m p, (∀ w ∈ bs, 0 < w.1) → solve k bs = .ok pot → pot x m = .ok p → p = (bs.map (field x)).sum + m * selfTerm
  own : ∀ x m, field x (m, x) = -(m * selfTerm)

theorem ExactGravity.near {solve : Nat → List (Weighted K) → Outcome ((Fin 3 → K) → K → Outcome K)} {field : (Fin 3 → K) → Weighted K → K} {selfTerm : K}
    (h : ExactGravity solve field selfTerm) : NearGravity solve (fun _ => True) field (fun _ _ => 0) := by
  have z : ∀ l : List (Weighted K), (l.map (fun _ => (0 : K))).sum = 0 := fun l => by simp
  refine ⟨fun _ _ _ _ _ => le_rfl, ?_, ?_⟩
  · intro k bs others pot x m p hbs hp hs hpot
    rw [h.sum k bs pot x m p (fun w hw => (hbs w hw).1) hs hpot, ← (hp.map _).sum_eq, List.map_cons, List.sum_cons, h.own, z]
    have : -(m * selfTerm) + (others.map (field x)).sum + m * selfTerm - (others.map (field x)).sum = 0 := by ring
    rw [this, abs_zero]
  · intro k bs pot x p hbs _ hs hpot
    rw [h.sum k bs pot x 0 p (fun w hw => (hbs w hw).1) hs hpot, z]
    simp

/-- The way from `y` to `x`, to the nearest image in a periodic box. -/
def Physics.away (ph : Physics K) (x y : Fin 3 → K) (d : Fin 3) : K := treeOffset ph.periodic ph.boxsize x y d

/-- The energies of the entries of `l`, in the frame `f`, with the gravity of the entries `m`, up to `slack` less the errors of the gravity of these entries. -/
def EnergiesOf (ph : Physics K) (field err : (Fin 3 → K) → Weighted K → K) (slack : Body K → K) (bs : List (Body K)) (f : Frame K) (l m : List (PE K)) : Prop :=
  ∀ e ∈ l, ∀ b others, bs[e.pid]? = some b → (b :: others).Perm (entryBodies bs m) →
    |e.e - specificEnergy (Physics.away ph) field (ph.hz * ph.scale) ph.withThermal f others b| + sumOf err b.pos others ≤ slack b

/-- `slack` is twice the error of the gravity of any bodies. -/
def SlackFor (err : (Fin 3 → K) → Weighted K → K) (slack : Body K → K) (bs : List (Body K)) : Prop :=
  ∀ b others, (b :: others).Subperm bs → 2 * sumOf err b.pos others ≤ slack b

omit [Field K] [LinearOrder K] [IsStrictOrderedRing K] in
theorem range_bodies (bs : List (Body K)) : (List.range bs.length).filterMap (fun i => bs[i]?) = bs := by
  have : ∀ n, n ≤ bs.length → (List.range n).filterMap (fun i => bs[i]?) = bs.take n := by
    intro n
    induction n with
    | zero => intro _; simp
    | succ n ih =>
      intro hn
      rw [List.range_succ, List.filterMap_append, ih (by omega), List.take_add_one, List.getElem?_eq_getElem (by omega)]
      simp [List.getElem?_eq_getElem (show n < bs.length by omega)]
  rw [this _ le_rfl, List.take_length]

omit [Field K] [LinearOrder K] [IsStrictOrderedRing K] in
theorem entryBodies_subperm {bs : List (Body K)} {l : List (PE K)} (h : (l.map PE.pid).Nodup) (hv : ∀ e ∈ l, e.pid < bs.length) :
    (entryBodies bs l).Subperm bs := by
  have h1 : (l.map PE.pid).Subperm (List.range bs.length) := h.subperm (fun i hi => by
    obtain ⟨e, he, rfl⟩ := List.mem_map.1 hi
    exact List.mem_range.2 (hv e he))
  obtain ⟨l', hp, hs⟩ := h1
  rw [members_map]
  refine ⟨l'.filterMap (fun i => bs[i]?), hp.filterMap _, ?_⟩
  have := hs.filterMap (fun i => bs[i]?)
  rwa [range_bodies] at this

theorem full_near {maxSample : Nat} {ph : Physics K} (hfl : ph.fl = id) {dom : (Fin 3 → K) → Prop} {field err : (Fin 3 → K) → Weighted K → K}
    {slack : Body K → K} (hex : NearGravity ph.solve dom field err) {bs : List (Body K)} (hm : ∀ b ∈ bs, 0 < b.mass ∧ dom b.pos) (hsl : SlackFor err slack bs)
    {k n : Nat} {ref : Frame K} {l l1 : List (PE K)}
    (hs : maxSample = 0 ∨ n ≤ maxSample) (hnd : (l.map PE.pid).Nodup) (hv : ∀ e ∈ l, e.pid < bs.length) (h : fullEnergies maxSample ph bs k n ref l = .ok l1) :
    EnergiesOf ph field err slack bs ref (l1.take n) (l1.take n) := by
  unfold fullEnergies at h
  have hns : ¬ (0 < maxSample ∧ maxSample < n) := by omega
  simp only [if_neg hns, mul_one] at h
  obtain ⟨tree, ht, h⟩ := bind_ok_inv h
  obtain ⟨pot, hp, h⟩ := bind_ok_inv h
  obtain ⟨hn, hpid, _, hall⟩ := updateFirst_facts h
  have htree : tree = entryBodies bs (l1.take n) := by
    rw [pickAll_members ht, members_map, members_map, List.map_take, List.map_take, hpid]
  have hsub : (entryBodies bs (l1.take n)).Subperm bs := by
    refine entryBodies_subperm ?_ ?_
    · rw [List.map_take, hpid]
      exact hnd.sublist (List.take_sublist _ _)
    · intro e he
      have : e.pid ∈ l1.map PE.pid := List.mem_map_of_mem (List.mem_of_mem_take he)
      rw [hpid] at this
      obtain ⟨e', he', h'⟩ := List.mem_map.1 this
      rw [← h']
      exact hv e' he'
  intro e he b others hb hperm
  obtain ⟨j, hj, x, hx, hxp, hf⟩ := hall e he
  obtain ⟨b', hb', hf⟩ := bind_ok_inv hf
  have hbb : b' = b := by
    have := get_inv hb'
    rw [← hxp, hb] at this
    exact (Option.some.inj this).symm
  subst hbb
  obtain ⟨E, hE, hf⟩ := bind_ok_inv hf
  unfold energyIn at hE
  obtain ⟨p, hpp, hE⟩ := bind_ok_inv hE
  rw [zero_add, if_pos hj] at hpp
  have hmem : b' ∈ bs := List.mem_of_getElem? hb
  have hsum := hex.own k _ (others.map (fun b => (b.mass, b.pos))) pot b'.pos b'.mass p (by
    intro w hw
    obtain ⟨c, hc, rfl⟩ := List.mem_map.1 hw
    rw [htree] at hc
    obtain ⟨_, _, hc⟩ := List.mem_filterMap.1 hc
    exact hm c (List.mem_of_getElem? hc)) (by rw [htree]; exact hperm.map (fun b => (b.mass, b.pos))) hp hpp
  rw [List.map_map, List.map_map] at hsum
  simp only [Function.comp_def] at hsum
  have h2 := hsl b' others (hperm.subperm.trans hsub)
  have key : e.e - specificEnergy (Physics.away ph) field (ph.hz * ph.scale) ph.withThermal ref others b' = p - sumOf field b'.pos others := by
    injection hE with hE
    injection hf with hf
    rw [← hf, ← hE, hfl]
    simp only [id]
    unfold specificEnergy Physics.velocity relativeVelocity vecDot Physics.away sumOf
    split <;> ring
  rw [key]
  unfold sumOf at h2 ⊢
  linarith

theorem correct_near {ph : Physics K} (hfl : ph.fl = id) {dom : (Fin 3 → K) → Prop} {field err : (Fin 3 → K) → Weighted K → K}
    {slack : Body K → K} (hex : NearGravity ph.solve dom field err) {bs : List (Body K)} (hm : ∀ b ∈ bs, 0 < b.mass ∧ dom b.pos)
    {k nlast n : Nat} {old ref : Frame K} {l l1 : List (PE K)}
    (hn : n ≤ nlast)
    (hadd : ∀ b ∈ bs, ∀ d, Physics.away ph b.pos ref.pos d = Physics.away ph b.pos old.pos d + Physics.away ph old.pos ref.pos d)
    (held : EnergiesOf ph field err slack bs old (l.take n) (l.take nlast)) (h : correctEnergies ph bs k nlast n old ref l = .ok l1) :
    EnergiesOf ph field err slack bs ref (l1.take n) (l1.take n) := by
  unfold correctEnergies at h
  obtain ⟨removed, ht, h⟩ := bind_ok_inv h
  obtain ⟨pot, hp, h⟩ := bind_ok_inv h
  obtain ⟨hnl, hpid, _, hall⟩ := updateFirst_facts h
  have hrem := pickAll_members ht
  have hsplit : l.take nlast = l.take n ++ (l.take nlast).drop n := by
    conv_lhs => rw [← List.take_append_drop n (l.take nlast)]
    rw [List.take_take, min_eq_left hn]
  have hmem1 : entryBodies bs (l1.take n) = entryBodies bs (l.take n) := by
    rw [members_map, members_map, List.map_take, List.map_take, hpid]
  intro e he b others hb hperm
  obtain ⟨j, hj, x, hx, hxp, hf⟩ := hall e he
  obtain ⟨b', hb', hf⟩ := bind_ok_inv hf
  have hbb : b' = b := by
    have := get_inv hb'
    rw [← hxp, hb] at this
    exact (Option.some.inj this).symm
  subst hbb
  obtain ⟨p, hpp, hf⟩ := bind_ok_inv hf
  have hsum := hex.away k _ pot b'.pos p (by
    intro w hw
    obtain ⟨c, hc, rfl⟩ := List.mem_map.1 hw
    rw [hrem] at hc
    obtain ⟨_, _, hc⟩ := List.mem_filterMap.1 hc
    exact hm c (List.mem_of_getElem? hc)) (hm b' (List.mem_of_getElem? hb)).2 hp hpp
  rw [List.map_map, List.map_map] at hsum
  simp only [Function.comp_def] at hsum
  have hold := held x (List.mem_of_getElem? (i := j) (by rw [List.getElem?_take, if_pos hj, hx])) b' (others ++ removed) (by rw [← hxp]; exact hb) (by
    rw [hsplit, members_append, ← hrem, ← List.cons_append, ← hmem1]
    exact hperm.append_right _)
  have ha := hadd b' (List.mem_of_getElem? hb)
  have key : e.e - specificEnergy (Physics.away ph) field (ph.hz * ph.scale) ph.withThermal ref others b' =
      (x.e - specificEnergy (Physics.away ph) field (ph.hz * ph.scale) ph.withThermal old (others ++ removed) b') - (p - sumOf field b'.pos removed) := by
    injection hf with hf
    rw [← hf, hfl]
    simp only [id]
    unfold specificEnergy Physics.velocity relativeVelocity vecDot sumOf
    rw [ha 0, ha 1, ha 2, List.map_append, List.sum_append]
    unfold Physics.away
    ring
  rw [key]
  have h3 := abs_sub (x.e - specificEnergy (Physics.away ph) field (ph.hz * ph.scale) ph.withThermal old (others ++ removed) b') (p - sumOf field b'.pos removed)
  unfold sumOf at hold h3 ⊢
  rw [List.map_append, List.sum_append] at hold
  linarith

/-- An iteration in which at least half of the particles were found unbound. -/
def Pass.Brisk (p : Pass K) : Prop := 2 * p.nbound ≤ p.list.length

/-- C76, with any boundary condition and any frames between which ways can be added (`additive`; see `C76_unbinding` and `C76_unbinding_periodic`). -/
theorem energies_core {cfg : UnbindConfig} {ph : Physics K} (hfl : ph.fl = id) {dom : (Fin 3 → K) → Prop} {field err : (Fin 3 → K) → Weighted K → K}
    {slack : Body K → K} (hex : NearGravity ph.solve dom field err) {sortE : List (PE K) → List (PE K)} (hs : ∀ l, (sortE l).Perm l)
    {bs : List (Body K)} (hm : ∀ b ∈ bs, 0 < b.mass ∧ dom b.pos) (hsl : SlackFor err slack bs) (frames : Frame K → Prop)
    (additive : ∀ f g, frames f → frames g → ∀ b ∈ bs, ∀ d,
      Physics.away ph b.pos g.pos d = Physics.away ph b.pos f.pos d + Physics.away ph f.pos g.pos d) :
    ∀ (fuel k : Nat) (corr : Option (Frame K)) (ref : Frame K) (l : List (PE K)) (nlast nbound : Nat) (tr : List (Pass K))
      (res : Option (List (PE K) × Nat × Frame K)),
      unbindPasses cfg ph sortE bs fuel k corr ref l nlast nbound = .ok (tr, res) → (cfg.maxSample = 0 ∨ nbound ≤ cfg.maxSample) →
      (l.map PE.pid).Nodup → (∀ e ∈ l, e.pid < bs.length) →
      nbound ≤ nlast → (∀ old, corr = some old → frames old ∧ EnergiesOf ph field err slack bs old (l.take nbound) (l.take nlast)) →
      (∀ p ∈ tr, frames p.frame) →
      ∀ pre p post, tr = pre ++ p :: post → pre.Pairwise (fun q q' => Pass.Brisk q' → Pass.Brisk q) →
        (corr ≠ none → ∀ q ∈ pre, ¬ Pass.Brisk q) → EnergiesOf ph field err slack bs p.frame p.list p.list := by
  intro fuel
  induction fuel with
  | zero => intro k corr ref l nlast nbound tr res h; cases h
  | succ fuel ih =>
    intro k corr ref l nlast nbound tr res h hsamp hnd hv hnn hcorr hfr pre p post htr hpw hq
    obtain ⟨l1, r1, L, nb, st⟩ := step_of h
    obtain ⟨hnl, hpid, hdrop, hlen⟩ := st.shape
    have hen : EnergiesOf ph field err slack bs ref (l1.take nbound) (l1.take nbound) := by
      have he := st.energies
      unfold passEnergies at he
      cases corr with
      | none => exact full_near hfl hex hm hsl hsamp hnd hv he
      | some old =>
        obtain ⟨h3, h4⟩ := hcorr old rfl
        refine correct_near hfl hex hm hnn (additive old ref h3 ?_) h4 he
        have : ∃ q tl, tr = q :: tl ∧ q.frame = ref := by
          rcases st.next with ⟨_, e, _⟩ | ⟨_, _, e, _⟩ | ⟨_, _, tl, e, _⟩ <;> exact ⟨_, _, e, rfl⟩
        obtain ⟨q, tl, e, rfl⟩ := this
        exact hfr q (by rw [e]; exact List.mem_cons_self)
    have hL := reordered hs (by omega) st.part
    rw [← st.def_] at hL
    obtain ⟨hle, hr1, hLl, hLt, hLp, hLd, _, _, _⟩ := hL
    have single : ∀ q, tr = [q] → q = p ∧ pre = [] := by
      intro q e
      rw [e] at htr
      cases pre with
      | nil => simp at htr; exact ⟨htr.1, rfl⟩
      | cons a pre => simp at htr
    rcases st.next with ⟨_, e, _⟩ | ⟨_, _, e, _⟩ | ⟨_, _, tr', e, hrun⟩
    · obtain ⟨rfl, _⟩ := single _ e
      exact hen
    · obtain ⟨rfl, _⟩ := single _ e
      exact hen
    · cases pre with
      | nil =>
        rw [e, List.nil_append] at htr
        injection htr with h5 h6
        subst h5
        exact hen
      | cons q pre =>
        rw [e, List.cons_append] at htr
        injection htr with h5 h6
        have hqp : q = ⟨ref, l1.take nbound, nb⟩ := h5.symm
        have hbrisk : Pass.Brisk q ↔ 2 * nb ≤ nbound := by
          rw [hqp]
          unfold Pass.Brisk
          simp only [List.length_take]
          rw [min_eq_left (by omega)]
        obtain ⟨hq1, hpw'⟩ := List.pairwise_cons.1 hpw
        have hLl1 : (L.map PE.pid).Perm (l.map PE.pid) := by
          rw [← hpid, ← List.take_append_drop nbound L, ← List.take_append_drop nbound l1, hLd]
          exact (hLp.append_right _).map _
        refine ih _ _ _ _ _ _ _ _ hrun (by omega) (hLl1.nodup_iff.2 hnd) (fun x hx => ?_) hle ?_ (fun p hp => hfr p (by rw [e]; exact List.mem_cons_of_mem _ hp)) pre p post h6 hpw' ?_
        · obtain ⟨x', hx', h'⟩ := List.mem_map.1 (hLl1.mem_iff.1 (List.mem_map_of_mem hx))
          rw [← h']
          exact hv x' hx'
        · intro old ho
          split at ho
          · cases ho
            refine ⟨hfr ⟨ref, l1.take nbound, nb⟩ (by rw [e]; exact List.mem_cons_self), ?_⟩
            intro x hx b others hb hperm
            rw [hLt] at hx
            have hx1 : x ∈ l1.take nbound := by
              have h7 : x ∈ L.take nbound := by
                rw [← hLt] at hx
                exact (List.take_sublist_take_left (l := L) hle).subset hx
              exact hLp.mem_iff.1 h7
            exact hen x hx1 b others hb (hperm.trans (members_perm bs hLp))
          · rename_i hc
            exfalso
            have h7 := hq (by rw [ho]; simp) q List.mem_cons_self
            rw [hbrisk] at h7
            rcases hsamp with hs0 | hs0
            · exact hc ⟨by omega, Or.inl hs0⟩
            · exact hc ⟨by omega, by omega⟩
        · intro hc q' hq'
          split at hc
          · rename_i hc'
            intro hb'
            have := hbrisk.1 (hq1 q' hq' hb')
            omega
          · exact hq hc q' (List.mem_cons_of_mem _ hq')

omit [Field K] [LinearOrder K] in
theorem members_length {bs : List (Body K)} : ∀ {l : List (PE K)}, (∀ e ∈ l, e.pid < bs.length) → (entryBodies bs l).length = l.length := by
  intro l
  induction l with
  | nil => intro _; rfl
  | cons e l ih =>
    intro h
    unfold entryBodies at ih ⊢
    have he := h e List.mem_cons_self
    rw [List.filterMap_cons, List.getElem?_eq_getElem he, List.length_cons, ih (fun e he => h e (List.mem_cons_of_mem _ he)), List.length_cons]

omit [Field K] [LinearOrder K] in
theorem mem_members {bs : List (Body K)} {l : List (PE K)} {b : Body K} (h : b ∈ entryBodies bs l) : ∃ e ∈ l, bs[e.pid]? = some b :=
  List.mem_filterMap.1 h

/-- The test for convergence. -/
def Enough (cfg : UnbindConfig) (n m : Nat) : Prop := cfg.fl (cfg.fl n * cfg.prec) ≤ cfg.fl m

/-- If the energies of all iterations are right, the bodies are unbound as specified. -/
theorem passes_unbinds {cfg : UnbindConfig} {ph : Physics K} {field err : (Fin 3 → K) → Weighted K → K} {slack : Body K → K}
    {sortE : List (PE K) → List (PE K)} (hs : ∀ l, (sortE l).Perm l) {bs : List (Body K)} {Centre : List (Body K) → Frame K → Prop} (hmin : 0 < cfg.minNum)
    (herr : ∀ b ∈ bs, ∀ o ∈ bs, 0 ≤ err b.pos (o.mass, o.pos))
    (hc : ∀ ref kept kept', kept ≠ [] → kept.Perm kept' → (∀ b ∈ kept, b ∈ bs) → Centre kept' (frameOf ph ref kept)) :
    ∀ (fuel k : Nat) (corr : Option (Frame K)) (ref : Frame K) (l : List (PE K)) (nlast nbound : Nat) (tr : List (Pass K))
      (res : Option (List (PE K) × Nat × Frame K)),
      unbindPasses cfg ph sortE bs fuel k corr ref l nlast nbound = .ok (tr, res) → (cfg.maxSample = 0 ∨ nbound ≤ cfg.maxSample) →
      (∀ e ∈ l, e.pid < bs.length) → (∀ p ∈ tr, EnergiesOf ph field err slack bs p.frame p.list p.list) →
      UnbindsWithin slack (specificEnergy (Physics.away ph) field (ph.hz * ph.scale) ph.withThermal) Centre cfg.minNum (Enough cfg) ref (entryBodies bs (l.take nbound))
        (res.map (fun r => (entryBodies bs (r.1.take r.2.1), r.2.2))) := by
  intro fuel
  induction fuel with
  | zero => intro k corr ref l nlast nbound tr res h; cases h
  | succ fuel ih =>
    intro k corr ref l nlast nbound tr res h hsamp hval hen
    obtain ⟨l1, r1, L, nb, st⟩ := step_of h
    obtain ⟨hnl, hpid, hdrop, hlen⟩ := st.shape
    have hL := reordered hs (by omega) st.part
    rw [← st.def_] at hL
    obtain ⟨hle, hr1, hLl, hLt, hLp, hLd, hparts, hbound, hunbound⟩ := hL
    have hen1 : EnergiesOf ph field err slack bs ref (l1.take nbound) (l1.take nbound) := by
      rcases st.next with ⟨_, e, _⟩ | ⟨_, _, e, _⟩ | ⟨_, _, tl, e, _⟩ <;>
        exact hen ⟨ref, l1.take nbound, nb⟩ (by rw [e]; exact List.mem_cons_self)
    have hval1 : ∀ e ∈ l1, e.pid < bs.length := by
      intro e he
      have : e.pid ∈ l1.map PE.pid := List.mem_map_of_mem he
      rw [hpid] at this
      obtain ⟨e', he', h'⟩ := List.mem_map.1 this
      rw [← h']
      exact hval e' he'
    have hmem : entryBodies bs (l.take nbound) = entryBodies bs (l1.take nbound) := by
      rw [members_map, members_map, List.map_take, List.map_take, hpid]
    have hlen1 : (entryBodies bs (l1.take nbound)).length = nbound := by
      rw [members_length (fun e he => hval1 e (List.mem_of_mem_take he)), List.length_take]; omega
    have hvalL : ∀ e ∈ L, e.pid < bs.length := by
      intro e he
      rw [← List.take_append_drop nbound L, hLd, List.mem_append, hLp.mem_iff, ← List.mem_append, List.take_append_drop] at he
      exact hval1 e he
    have hlenk : (entryBodies bs (L.take nb)).length = nb := by
      rw [members_length (fun e he => hvalL e (List.mem_of_mem_take he)), List.length_take]; omega
    have hnon : ∀ e ∈ l1.take nbound, ∀ b others, bs[e.pid]? = some b → (b :: others).Perm (entryBodies bs (l1.take nbound)) → 0 ≤ sumOf err b.pos others := by
      intro e _ b others hb ho
      refine List.sum_nonneg (fun a ha => ?_)
      obtain ⟨o, hmo, rfl⟩ := List.mem_map.1 ha
      obtain ⟨_, _, hmo⟩ := mem_members (ho.mem_iff.1 (List.mem_cons_of_mem _ hmo))
      exact herr b (List.mem_of_getElem? hb) o (List.mem_of_getElem? hmo)
    have split : ∀ kept, kept.Perm (entryBodies bs (L.take nb)) →
        SplitWithin slack (specificEnergy (Physics.away ph) field (ph.hz * ph.scale) ph.withThermal ref) (entryBodies bs (l.take nbound))
        kept (entryBodies bs ((r1.take nbound).drop nb)) := by
      intro kept hk
      rw [hmem]
      refine ⟨?_, ?_, ?_⟩
      · refine (hk.append_right _).trans ?_
        rw [← members_append, hLt]
        exact members_perm bs hparts
      · intro b hb others ho
        rw [hk.mem_iff, hLt] at hb
        obtain ⟨e, he, hb⟩ := mem_members hb
        have he1 : e ∈ l1.take nbound := hparts.mem_iff.1 (List.mem_append_left _ he)
        have h9 := hen1 e he1 b others hb ho
        have h10 := hnon e he1 b others hb ho
        have h11 := hbound e he
        have h12 := neg_abs_le (e.e - specificEnergy (Physics.away ph) field (ph.hz * ph.scale) ph.withThermal ref others b)
        linarith
      · intro b hb others ho
        obtain ⟨e, he, hb⟩ := mem_members hb
        have he1 : e ∈ l1.take nbound := hparts.mem_iff.1 (List.mem_append_right _ he)
        have h9 := hen1 e he1 b others hb ho
        have h10 := hnon e he1 b others hb ho
        have h11 := hunbound e he
        have h12 := le_abs_self (e.e - specificEnergy (Physics.away ph) field (ph.hz * ph.scale) ph.withThermal ref others b)
        linarith
    have hinbs : ∀ b ∈ entryBodies bs (L.take nb), b ∈ bs := fun b hb => by
      obtain ⟨e, _, hb⟩ := mem_members hb
      exact List.mem_of_getElem? hb
    rcases st.next with ⟨hfew, e, hres⟩ | ⟨hmany, hconv, e, l', hres, hl'⟩ | ⟨hmany, hconv, tr', e, hrun⟩
    · rw [hres]
      exact .disrupted (split _ (List.Perm.refl _)) (by rw [hlenk]; exact hfew)
    · rw [if_neg (by omega)] at hl'
      injection hl' with hl'
      have hne : entryBodies bs (L.take nb) ≠ [] := by
        intro h0
        rw [h0] at hlenk
        simp at hlenk
        omega
      have htake : l'.take nb = sortE (L.take nb) := by
        have h8 : (sortE (L.take nb)).length = nb := by rw [(hs _).length_eq, List.length_take]; omega
        rw [← hl', List.take_append_of_le_length (by omega), List.take_of_length_le (by omega)]
      have hperm : (entryBodies bs (l'.take nb)).Perm (entryBodies bs (L.take nb)) := by
        rw [htake]; exact members_perm bs (hs _)
      rw [hres]
      refine .converged (split _ hperm) ?_ ?_ (hc _ _ _ hne hperm.symm hinbs)
      · rw [hperm.length_eq, hlenk]; omega
      · rw [hperm.length_eq, hlenk, hmem, hlen1]; exact hconv
    · have hne : entryBodies bs (L.take nb) ≠ [] := by
        intro h0
        rw [h0] at hlenk
        simp at hlenk
        omega
      refine .again (split _ (List.Perm.refl _)) (by rw [hlenk]; omega) ?_ (hc _ _ _ hne (List.Perm.refl _) hinbs)
        (ih _ _ _ _ _ _ _ _ hrun (by omega) hvalL (fun p hp => hen p (by rw [e]; exact List.mem_cons_of_mem _ hp)))
      rw [hlenk, hmem, hlen1]; exact hconv

/-- All frames have a property that the first one has and that centres of mass have. -/
theorem passes_frames {cfg : UnbindConfig} {ph : Physics K} {sortE : List (PE K) → List (PE K)} (hs : ∀ l, (sortE l).Perm l) {bs : List (Body K)}
    (hmin : 0 < cfg.minNum) (F : Frame K → Prop) (hF : ∀ ref kept, kept ≠ [] → (∀ b ∈ kept, b ∈ bs) → F (frameOf ph ref kept)) :
    ∀ (fuel k : Nat) (corr : Option (Frame K)) (ref : Frame K) (l : List (PE K)) (nlast nbound : Nat) (tr : List (Pass K))
      (res : Option (List (PE K) × Nat × Frame K)),
      unbindPasses cfg ph sortE bs fuel k corr ref l nlast nbound = .ok (tr, res) → (∀ e ∈ l, e.pid < bs.length) → F ref → ∀ p ∈ tr, F p.frame := by
  intro fuel
  induction fuel with
  | zero => intro k corr ref l nlast nbound tr res h; cases h
  | succ fuel ih =>
    intro k corr ref l nlast nbound tr res h hval href p hp
    obtain ⟨l1, r1, L, nb, st⟩ := step_of h
    obtain ⟨hnl, hpid, hdrop, hlen⟩ := st.shape
    have hL := reordered hs (by omega) st.part
    rw [← st.def_] at hL
    obtain ⟨hle, hr1, hLl, hLt, hLp, hLd, hparts, hbound, hunbound⟩ := hL
    have hval1 : ∀ e ∈ l1, e.pid < bs.length := by
      intro e he
      have : e.pid ∈ l1.map PE.pid := List.mem_map_of_mem he
      rw [hpid] at this
      obtain ⟨e', he', h'⟩ := List.mem_map.1 this
      rw [← h']
      exact hval e' he'
    have hvalL : ∀ e ∈ L, e.pid < bs.length := by
      intro e he
      rw [← List.take_append_drop nbound L, hLd, List.mem_append, hLp.mem_iff, ← List.mem_append, List.take_append_drop] at he
      exact hval1 e he
    have hlenk : (entryBodies bs (L.take nb)).length = nb := by
      rw [members_length (fun e he => hvalL e (List.mem_of_mem_take he)), List.length_take]; omega
    rcases st.next with ⟨_, e, _⟩ | ⟨_, _, e, _⟩ | ⟨hmany, _, tr', e, hrun⟩
    · rw [e, List.mem_singleton] at hp; rw [hp]; exact href
    · rw [e, List.mem_singleton] at hp; rw [hp]; exact href
    · rw [e, List.mem_cons] at hp
      rcases hp with rfl | hp
      · exact href
      · refine ih _ _ _ _ _ _ _ _ hrun hvalL (hF _ _ ?_ ?_) p hp
        · intro h0
          rw [h0] at hlenk
          simp at hlenk
          omega
        · intro b hb
          obtain ⟨e, _, hb⟩ := mem_members hb
          exact List.mem_of_getElem? hb

/-- C76 for the loop. -/
theorem unbinds_core {cfg : UnbindConfig} {ph : Physics K} (hfl : ph.fl = id) {dom : (Fin 3 → K) → Prop} {field err : (Fin 3 → K) → Weighted K → K}
    {slack : Body K → K} (hex : NearGravity ph.solve dom field err) {sortE : List (PE K) → List (PE K)} (hs : ∀ l, (sortE l).Perm l)
    {bs : List (Body K)} (hm : ∀ b ∈ bs, 0 < b.mass ∧ dom b.pos) (hsl : SlackFor err slack bs) (hmin : 0 < cfg.minNum) (frames : Frame K → Prop)
    (additive : ∀ f g, frames f → frames g → ∀ b ∈ bs, ∀ d,
      Physics.away ph b.pos g.pos d = Physics.away ph b.pos f.pos d + Physics.away ph f.pos g.pos d)
    (hF : ∀ ref kept, kept ≠ [] → (∀ b ∈ kept, b ∈ bs) → frames (frameOf ph ref kept)) {Centre : List (Body K) → Frame K → Prop}
    (hc : ∀ ref kept kept', kept ≠ [] → kept.Perm kept' → (∀ b ∈ kept, b ∈ bs) → Centre kept' (frameOf ph ref kept))
    {fuel : Nat} {ref : Frame K} (href : frames ref) {l : List (PE K)} (hl : l.map PE.pid = List.range bs.length) {tr : List (Pass K)}
    {res : Option (List (PE K) × Nat × Frame K)} (h : unbindPasses cfg ph sortE bs fuel 0 none ref l bs.length bs.length = .ok (tr, res))
    (hsamp : cfg.maxSample = 0 ∨ bs.length ≤ cfg.maxSample) (hbr : tr.dropLast.Pairwise (fun p q => Pass.Brisk q → Pass.Brisk p)) :
    UnbindsWithin slack (specificEnergy (Physics.away ph) field (ph.hz * ph.scale) ph.withThermal) Centre cfg.minNum (Enough cfg) ref bs
        (res.map (fun r => (entryBodies bs (r.1.take r.2.1), r.2.2))) := by
  have hval : ∀ e ∈ l, e.pid < bs.length := by
    intro e he
    have : e.pid ∈ l.map PE.pid := List.mem_map_of_mem he
    rw [hl] at this
    exact List.mem_range.1 this
  have hll : l.length = bs.length := by
    have := congrArg List.length hl
    simpa using this
  have hfr := passes_frames hs hmin frames hF _ _ _ _ _ _ _ _ _ h hval href
  have hen : ∀ p ∈ tr, EnergiesOf ph field err slack bs p.frame p.list p.list := by
    intro p hp
    obtain ⟨pre, post, e⟩ := List.append_of_mem hp
    refine energies_core hfl hex hs hm hsl frames additive _ _ _ _ _ _ _ _ _ h hsamp (by rw [hl]; exact List.nodup_range) hval le_rfl (fun _ h => by cases h) hfr pre p post e ?_ (fun h => absurd rfl h)
    refine hbr.sublist ?_
    rw [e, List.dropLast_append_of_ne_nil (by simp)]
    exact List.sublist_append_left _ _
  have := passes_unbinds hs hmin (fun b hb o ho => hex.nonneg _ _ (hm b hb).2 (hm o ho).2 (hm o ho).1) hc _ _ _ _ _ _ _ _ _ h hsamp hval hen
  have e : entryBodies bs (l.take bs.length) = bs := by
    rw [members_map, List.map_take, hl, List.take_of_length_le (by simp), range_bodies]
  rw [e] at this
  exact this

/-- The bodies of particles. -/
def bodiesOf (body : D → Body K) (ps : List (Particle D)) : List (Body K) := ps.map (fun p => body p.data)

omit [Field K] [LinearOrder K] in
theorem picked_bodies {body : D → Body K} {ps : List (Particle D)} : ∀ {l : List (PE K)} {out : List (Particle D)}, pickAll ps (l.map PE.pid) = .ok out →
    out.map (fun p => body p.data) = entryBodies (bodiesOf body ps) l := by
  intro l
  induction l with
  | nil => intro out h; cases h; rfl
  | cons e l ih =>
    intro out h
    rw [List.map_cons, pickAll] at h
    obtain ⟨x, hx, h⟩ := bind_ok_inv h
    obtain ⟨xs, hxs, h⟩ := bind_ok_inv h
    cases h
    rw [entryBodies, List.filterMap_cons, bodiesOf, List.getElem?_map, get_inv hx, List.map_cons, ih hxs]
    rfl

omit [Field K] [LinearOrder K] in
theorem entryBodies_take {bs : List (Body K)} {l : List (PE K)} (h : (entryBodies bs l).length = l.length) (n : Nat) :
    entryBodies bs (l.take n) = (entryBodies bs l).take n := by
  induction l generalizing n with
  | nil => simp [entryBodies]
  | cons e l ih =>
    unfold entryBodies at ih h ⊢
    rw [List.filterMap_cons] at h
    cases hb : bs[e.pid]? with
    | none =>
      rw [hb] at h
      have := List.length_filterMap_le (fun e => bs[e.pid]?) l
      simp only [List.length_cons] at h
      omega
    | some b =>
      rw [hb] at h
      cases n with
      | zero => simp
      | succ n => rw [List.take_succ_cons, List.filterMap_cons, hb, List.filterMap_cons, hb, List.take_succ_cons, ih (by simpa using h)]

omit [Field K] [LinearOrder K] in
theorem pickAll_length {α : Type} {ps : List α} : ∀ {is : List Nat} {out : List α}, pickAll ps is = .ok out → out.length = is.length := by
  intro is
  induction is with
  | nil => intro out h; cases h; rfl
  | cons i is ih =>
    intro out h
    rw [pickAll] at h
    obtain ⟨x, _, h⟩ := bind_ok_inv h
    obtain ⟨xs, hxs, h⟩ := bind_ok_inv h
    cases h
    simp [ih hxs]

/-- The loop in `unbindBodies`. -/
theorem bodies_run {cfg : UnbindConfig} {ph : Physics K} {sortE : List (PE K) → List (PE K)} {shuffle : List (Particle D) → List (Particle D)}
    {junk : Nat → K} {way : Nat} {body : D → Body K} {fuel : Nat} {snap : Int} {ref : Frame K} {s s' : Sub K D} {f : Option (Frame K)} {tr : List (Pass K)}
    (h : unbindBodies cfg ph sortE shuffle junk way body fuel snap ref s = .ok (s', f, tr)) (hn : 2 ≤ s.particles.length)
    (hsamp : cfg.maxSample = 0 ∨ s.particles.length ≤ cfg.maxSample) (hsnap : snap ≠ nullSnap) :
    ∃ res, unbindPasses cfg ph sortE (bodiesOf body s.particles) fuel 0 none ref
        ((List.range (bodiesOf body s.particles).length).map (fun i => ⟨i, junk i⟩)) (bodiesOf body s.particles).length (bodiesOf body s.particles).length = .ok (tr, res) ∧
      ((res = none ∧ f = none ∧ s'.nbound = 1 ∧ s'.snapDeath ≠ nullSnap) ∨
        ∃ l nb g, res = some (l, nb, g) ∧ f = some g ∧ s'.snapDeath = nullSnap ∧
          bodiesOf body (s'.particles.take s'.nbound) = entryBodies (bodiesOf body s.particles) (l.take nb)) := by
  unfold unbindBodies at h
  simp only at h
  have hps : (if s.particles.length < cfg.minNum then die snap s else s).particles = s.particles := by
    unfold die
    split_ifs <;> rfl
  rw [hps] at h
  rcases hs : s.particles with _ | ⟨p0, _ | ⟨p1, ps⟩⟩
  · rw [hs] at hn; simp at hn
  · rw [hs] at hn; simp at hn
  · rw [hs] at h
    simp only at h
    rw [← hs, if_neg (by omega)] at h
    obtain ⟨⟨tr', res⟩, hrun, h⟩ := bind_ok_inv h
    have hlen : (bodiesOf body s.particles).length = s.particles.length := List.length_map _
    rw [← hs]
    cases res with
    | none =>
      simp only at h
      obtain ⟨ps', _, h⟩ := bind_ok_inv h
      cases h
      refine ⟨none, by rw [hlen]; exact hrun, Or.inl ⟨rfl, rfl, rfl, ?_⟩⟩
      unfold setBound die Sub.withParticles
      simp only
      split_ifs <;> simp_all
    | some r =>
      obtain ⟨l, nb, g⟩ := r
      simp only at h
      obtain ⟨ps', hpick, h⟩ := bind_ok_inv h
      cases h
      refine ⟨some (l, nb, g), by rw [hlen]; exact hrun, Or.inr ⟨l, nb, g, rfl, rfl, rfl, ?_⟩⟩
      have h1 := picked_bodies (body := body) hpick
      have h2 := pickAll_length hpick
      rw [entryBodies_take (by rw [← h1]; simpa using h2), ← h1]
      exact List.map_take

/-- Unbinding in free space with energies that may be wrong; see `C76_unbinding`. -/
theorem unbinds_free (cfg : UnbindConfig) (ph : Physics K) (hper : ph.periodic = false) (hfl : ph.fl = id)
    (dom : (Fin 3 → K) → Prop) (field err : (Fin 3 → K) → K × (Fin 3 → K) → K) (hex : NearGravity ph.solve dom field err) (slack : Body K → K)
    (sortE : List (PE K) → List (PE K)) (hs : ∀ l, (sortE l).Perm l) (shuffle : List (Particle D) → List (Particle D)) (junk : Nat → K) (way : Nat)
    (body : D → Body K) (fuel : Nat) (snap : Int) (hsnap : snap ≠ nullSnap) (ref : Frame K) (s s' : Sub K D) (f : Option (Frame K)) (tr : List (Pass K))
    (h : unbindBodies cfg ph sortE shuffle junk way body fuel snap ref s = .ok (s', f, tr)) (hn : 2 ≤ s.particles.length)
    (hm : ∀ b ∈ bodiesOf body s.particles, 0 < b.mass ∧ dom b.pos)
    (hsl : SlackFor err slack (bodiesOf body s.particles)) (hmin : 0 < cfg.minNum) (hsamp : cfg.maxSample = 0 ∨ s.particles.length ≤ cfg.maxSample)
    (hbr : tr.dropLast.Pairwise (fun p q => Pass.Brisk q → Pass.Brisk p)) :
    (UnbindsWithin slack (specificEnergy (fun x y d => x d - y d) field (ph.hz * ph.scale) ph.withThermal) CentreOf cfg.minNum (Enough cfg) ref
        (bodiesOf body s.particles) none ∧ f = none ∧ s'.nbound = 1 ∧ s'.snapDeath ≠ nullSnap) ∨
    ∃ g, UnbindsWithin slack (specificEnergy (fun x y d => x d - y d) field (ph.hz * ph.scale) ph.withThermal) CentreOf cfg.minNum (Enough cfg) ref
        (bodiesOf body s.particles) (some (bodiesOf body (s'.particles.take s'.nbound), g)) ∧ f = some g ∧ s'.snapDeath = nullSnap := by
  have haway : Physics.away ph = fun x y d => x d - y d := by
    funext x y d
    simp [Physics.away, treeOffset, hper]
  obtain ⟨res, hrun, hres⟩ := bodies_run h hn hsamp hsnap
  have hcentre : ∀ ref kept, kept ≠ [] → (∀ b ∈ kept, b ∈ bodiesOf body s.particles) → CentreOf kept (frameOf ph ref kept) := by
    intro ref kept hne hin
    have hmass : ∀ g : Body K → Fin 3 → K, ∀ p ∈ kept.map (fun b => (b.mass, g b)), 0 < p.1 := fun g p hp => by
      obtain ⟨b, hb, rfl⟩ := List.mem_map.1 hp
      exact (hm b (hin b hb)).1
    have hpos : ∀ g : Body K → Fin 3 → K, massSum (kept.map (fun b => (b.mass, g b))) ≠ 0 := fun g =>
      ne_of_gt (massSum_pos _ (by simpa using hne) (hmass g))
    constructor
    · unfold frameOf
      simp only [hper]
      rw [averagePosition_free _ _ _ (by simpa using hne) (hpos _)]
    · unfold frameOf
      simp only
      rw [C53_velocity _ (kept.map (fun b => (b.mass, b.vel))) (by simpa using hne) (hmass _)]
  have := unbinds_core hfl hex hs hm hsl hmin (fun _ => True) (fun f g _ _ b _ d => by rw [haway]; ring) (fun _ _ _ _ => trivial)
    (Centre := CentreOf) (fun ref kept kept' hne hp hin => by
      obtain ⟨h1, h2⟩ := hcentre ref kept hne hin
      exact ⟨h1.trans (massMean_perm (hp.map _)), h2.trans (massMean_perm (hp.map _))⟩) trivial (by rw [List.map_map]; simp [Function.comp_def]) hrun
    (by rw [bodiesOf, List.length_map]; exact hsamp) hbr
  rw [haway] at this
  rcases hres with ⟨rfl, hf, hb, hd⟩ | ⟨l, nb, g, rfl, hf, hd, hbod⟩
  · exact Or.inl ⟨this, hf, hb, hd⟩
  · refine Or.inr ⟨g, ?_, hf, hd⟩
    rw [hbod]
    exact this

/-- Unbinding in a periodic box with energies that may be wrong; see `C76_unbinding_periodic`. -/
theorem unbinds_box (cfg : UnbindConfig) (ph : Physics K) (hper : ph.periodic = true) (hB : 0 < ph.boxsize) (hfl : ph.fl = id)
    (dom : (Fin 3 → K) → Prop) (field err : (Fin 3 → K) → K × (Fin 3 → K) → K) (hex : NearGravity ph.solve dom field err) (slack : Body K → K)
    (sortE : List (PE K) → List (PE K)) (hs : ∀ l, (sortE l).Perm l) (shuffle : List (Particle D) → List (Particle D)) (junk : Nat → K) (way : Nat)
    (body : D → Body K) (fuel : Nat) (snap : Int) (hsnap : snap ≠ nullSnap) (ref : Frame K) (s s' : Sub K D) (f : Option (Frame K)) (tr : List (Pass K))
    (turns : (Fin 3 → K) → Fin 3 → ℤ) (free : (Fin 3 → K) → Fin 3 → K) (hfree : ∀ x j, x j = free x j + turns x j * ph.boxsize) (c : Fin 3 → K)
    (hnear : ∀ x ∈ ref.pos :: (bodiesOf body s.particles).map Body.pos, ∀ j, |free x j - c j| < ph.boxsize / 4)
    (hbox : ∀ x ∈ ref.pos :: (bodiesOf body s.particles).map Body.pos, ∀ y ∈ ref.pos :: (bodiesOf body s.particles).map Body.pos, ∀ j,
      |turns x j - turns y j| ≤ 1)
    (h : unbindBodies cfg ph sortE shuffle junk way body fuel snap ref s = .ok (s', f, tr)) (hn : 2 ≤ s.particles.length)
    (hm : ∀ b ∈ bodiesOf body s.particles, 0 < b.mass ∧ dom b.pos)
    (hsl : SlackFor err slack (bodiesOf body s.particles)) (hmin : 0 < cfg.minNum) (hsamp : cfg.maxSample = 0 ∨ s.particles.length ≤ cfg.maxSample)
    (hbr : tr.dropLast.Pairwise (fun p q => Pass.Brisk q → Pass.Brisk p)) :
    (UnbindsWithin slack (specificEnergy (fun x y d => nearest ph.boxsize (x d - y d)) field (ph.hz * ph.scale) ph.withThermal) (CentreInBox ph.boxsize free) cfg.minNum
        (Enough cfg) ref (bodiesOf body s.particles) none ∧ f = none ∧ s'.nbound = 1 ∧ s'.snapDeath ≠ nullSnap) ∨
    ∃ g, UnbindsWithin slack (specificEnergy (fun x y d => nearest ph.boxsize (x d - y d)) field (ph.hz * ph.scale) ph.withThermal) (CentreInBox ph.boxsize free) cfg.minNum
        (Enough cfg) ref (bodiesOf body s.particles) (some (bodiesOf body (s'.particles.take s'.nbound), g)) ∧ f = some g ∧ s'.snapDeath = nullSnap := by
  have haway : Physics.away ph = fun x y d => nearest ph.boxsize (x d - y d) := by
    funext x y d
    simp [Physics.away, treeOffset, hper]
  obtain ⟨res, hrun, hres⟩ := bodies_run h hn hsamp hsnap
  have hbx : ∀ b ∈ bodiesOf body s.particles, b.pos ∈ ref.pos :: (bodiesOf body s.particles).map Body.pos :=
    fun b hb => List.mem_cons_of_mem _ (List.mem_map_of_mem hb)
  -- a frame is somewhere near `c`
  let place : Frame K → Prop := fun f => ∃ (y : Fin 3 → K) (x : Fin 3 → K), x ∈ ref.pos :: (bodiesOf body s.particles).map Body.pos ∧
    (∀ j, |y j - c j| < ph.boxsize / 4) ∧ ∀ j, f.pos j = y j + turns x j * ph.boxsize
  have hcentre : ∀ ref kept, kept ≠ [] → (∀ b ∈ kept, b ∈ bodiesOf body s.particles) →
      (∃ b ∈ kept, ∀ j, (frameOf ph ref kept).pos j = massMean (kept.map (fun b => (b.mass, free b.pos))) j + turns b.pos j * ph.boxsize) ∧
      (frameOf ph ref kept).vel = massMean (kept.map (fun b => (b.mass, b.vel))) := by
    intro ref kept hne hin
    have hmass : ∀ g : Body K → Fin 3 → K, ∀ p ∈ kept.map (fun b => (b.mass, g b)), 0 < p.1 := fun g p hp => by
      obtain ⟨b, hb, rfl⟩ := List.mem_map.1 hp
      exact (hm b (hin b hb)).1
    constructor
    · cases hk : kept with
      | nil => exact absurd hk hne
      | cons b0 rest =>
        refine ⟨b0, List.mem_cons_self, fun j => ?_⟩
        have key := averagePosition_box ph.boxsize hB ref.pos ⟨b0.mass, free b0.pos, turns b0.pos⟩
          (rest.map (fun b => ⟨b.mass, free b.pos, turns b.pos⟩)) (by
            intro p hp j
            have : p ∈ (b0 :: rest).map (fun b : Body K => (⟨b.mass, free b.pos, turns b.pos⟩ : BoxParticle K)) := by simpa using hp
            obtain ⟨b, hb, rfl⟩ := List.mem_map.1 this
            rw [← hk] at hb
            have h0 : b0 ∈ kept := by rw [hk]; exact List.mem_cons_self
            refine ⟨?_, hbox _ (hbx b (hin b hb)) _ (hbx b0 (hin b0 h0)) j⟩
            have a1 := abs_lt.1 (hnear _ (hbx b (hin b hb)) j)
            have a2 := abs_lt.1 (hnear _ (hbx b0 (hin b0 h0)) j)
            rw [abs_lt]
            constructor <;> simp only <;> linarith) (by
            have h5 := massSum_pos _ (by simpa using hne) (hmass (fun b => free b.pos))
            rw [hk] at h5
            simpa [BoxParticle.free, List.map_map, Function.comp_def] using ne_of_gt h5)
        have e1 : (({ mass := b0.mass, pos := free b0.pos, turns := turns b0.pos } : BoxParticle K) ::
            rest.map (fun b => (⟨b.mass, free b.pos, turns b.pos⟩ : BoxParticle K))).map (BoxParticle.seen ph.boxsize) =
            (b0 :: rest).map (fun b => (b.mass, b.pos)) := by
          simp only [List.map_cons, List.map_map, BoxParticle.seen, Function.comp_def, ← hfree]
        have e2 : (({ mass := b0.mass, pos := free b0.pos, turns := turns b0.pos } : BoxParticle K) ::
            rest.map (fun b => (⟨b.mass, free b.pos, turns b.pos⟩ : BoxParticle K))).map BoxParticle.free =
            (b0 :: rest).map (fun b => (b.mass, free b.pos)) := by
          simp only [List.map_cons, List.map_map, BoxParticle.free, Function.comp_def]
        rw [e1, e2] at key
        unfold frameOf
        simp only [hper]
        rw [key]
    · unfold frameOf
      simp only
      rw [C53_velocity _ (kept.map (fun b => (b.mass, b.vel))) (by simpa using hne) (hmass _)]
  have := unbinds_core hfl hex hs hm hsl hmin place (by
      intro f g hf hg b hb d
      obtain ⟨yf, xf, hxf, hyf, hf⟩ := hf
      obtain ⟨yg, xg, hxg, hyg, hg⟩ := hg
      have hxb := hbx b hb
      have key : ∀ (p q : K) (t u : ℤ), |p - c d| < ph.boxsize / 4 → |q - c d| < ph.boxsize / 4 → |t - u| ≤ 1 →
          nearest ph.boxsize (p + t * ph.boxsize - (q + u * ph.boxsize)) = p - q := by
        intro p q t u hp hq htu
        have e : p + t * ph.boxsize - (q + u * ph.boxsize) = (p - q) + ((t - u : ℤ) : K) * ph.boxsize := by push_cast; ring
        rw [e, nearest_unwrap _ _ _ hB ?_ htu]
        have a1 := abs_lt.1 hp
        have a2 := abs_lt.1 hq
        rw [abs_lt]
        constructor <;> linarith
      rw [haway]
      simp only
      rw [hf d, hg d, hfree b.pos d, key _ _ _ _ (hnear _ hxb d) (hyg d) (hbox _ hxb _ hxg d), key _ _ _ _ (hnear _ hxb d) (hyf d) (hbox _ hxb _ hxf d),
        key _ _ _ _ (hyf d) (hyg d) (hbox _ hxf _ hxg d)]
      ring) (by
      intro ref' kept hne hin
      obtain ⟨⟨b, hb, hpos⟩, _⟩ := hcentre ref' kept hne hin
      refine ⟨_, b.pos, hbx b (hin b hb), fun j => ?_, hpos⟩
      refine mean_near _ (by simpa using hne) ?_ j (c j) _ ?_
      · intro p hp
        obtain ⟨b, hb, rfl⟩ := List.mem_map.1 hp
        exact (hm b (hin b hb)).1
      · intro p hp
        obtain ⟨b, hb, rfl⟩ := List.mem_map.1 hp
        exact hnear _ (hbx b (hin b hb)) j)
    (Centre := CentreInBox ph.boxsize free) (fun ref kept kept' hne hp hin => by
      obtain ⟨⟨b, _, h1⟩, h2⟩ := hcentre ref kept hne hin
      refine ⟨fun j => ⟨turns b.pos j, ?_⟩, h2.trans (massMean_perm (hp.map _))⟩
      rw [h1 j, massMean_perm (hp.map _)]) ⟨free ref.pos, ref.pos, List.mem_cons_self, hnear _ List.mem_cons_self, hfree _⟩
    (by rw [List.map_map]; simp [Function.comp_def]) hrun (by rw [bodiesOf, List.length_map]; exact hsamp) hbr
  rw [haway] at this
  rcases hres with ⟨rfl, hf, hb, hd⟩ | ⟨l, nb, g, rfl, hf, hd, hbod⟩
  · exact Or.inl ⟨this, hf, hb, hd⟩
  · refine Or.inr ⟨g, ?_, hf, hd⟩
    rw [hbod]
    exact this

theorem slack_zero (bs : List (Body K)) : SlackFor (fun _ _ => (0 : K)) (fun _ => 0) bs := by
  intro b others _
  simp [sumOf]

/-- C76: unbinding, in free space, with a solver of gravity that adds up the potentials of single bodies. The bodies are unbound as specified (`Unbinds`): the
energies are those in the centre-of-mass frame of the bodies left. `hbr`: once an iteration has removed fewer than half of the bodies, no later one but the
last may remove half or more; see `C76_stale_frame`. Energies are not rounded, and the potentials are not estimated from a sample. -/
theorem C76_unbinding (cfg : UnbindConfig) (ph : Physics K) (hper : ph.periodic = false) (hfl : ph.fl = id)
    (field : (Fin 3 → K) → K × (Fin 3 → K) → K) (selfTerm : K) (hex : ExactGravity ph.solve field selfTerm)
    (sortE : List (PE K) → List (PE K)) (hs : ∀ l, (sortE l).Perm l) (shuffle : List (Particle D) → List (Particle D)) (junk : Nat → K) (way : Nat)
    (body : D → Body K) (fuel : Nat) (snap : Int) (hsnap : snap ≠ nullSnap) (ref : Frame K) (s s' : Sub K D) (f : Option (Frame K)) (tr : List (Pass K))
    (h : unbindBodies cfg ph sortE shuffle junk way body fuel snap ref s = .ok (s', f, tr)) (hn : 2 ≤ s.particles.length)
    (hm : ∀ b ∈ bodiesOf body s.particles, 0 < b.mass) (hmin : 0 < cfg.minNum) (hsamp : cfg.maxSample = 0 ∨ s.particles.length ≤ cfg.maxSample)
    (hbr : tr.dropLast.Pairwise (fun p q => Pass.Brisk q → Pass.Brisk p)) :
    (Unbinds (specificEnergy (fun x y d => x d - y d) field (ph.hz * ph.scale) ph.withThermal) CentreOf cfg.minNum (Enough cfg) ref
        (bodiesOf body s.particles) none ∧ f = none ∧ s'.nbound = 1 ∧ s'.snapDeath ≠ nullSnap) ∨
    ∃ g, Unbinds (specificEnergy (fun x y d => x d - y d) field (ph.hz * ph.scale) ph.withThermal) CentreOf cfg.minNum (Enough cfg) ref
        (bodiesOf body s.particles) (some (bodiesOf body (s'.particles.take s'.nbound), g)) ∧ f = some g ∧ s'.snapDeath = nullSnap :=
  unbinds_free cfg ph hper hfl _ field _ hex.near (fun _ => 0) sortE hs shuffle junk way body fuel snap hsnap ref s s' f tr h hn (fun b hb => ⟨hm b hb, trivial⟩)
    (slack_zero _) hmin hsamp hbr

/-- C76 in a periodic box. `turns x` is how many box lengths the place recorded as `x` is away from where it is in free space (`free x`). In free space the
bodies and the first frame are within a quarter of the box from a point `c`; as recorded, they are at most one box length further apart. -/
theorem C76_unbinding_periodic (cfg : UnbindConfig) (ph : Physics K) (hper : ph.periodic = true) (hB : 0 < ph.boxsize) (hfl : ph.fl = id)
    (field : (Fin 3 → K) → K × (Fin 3 → K) → K) (selfTerm : K) (hex : ExactGravity ph.solve field selfTerm)
    (sortE : List (PE K) → List (PE K)) (hs : ∀ l, (sortE l).Perm l) (shuffle : List (Particle D) → List (Particle D)) (junk : Nat → K) (way : Nat)
    (body : D → Body K) (fuel : Nat) (snap : Int) (hsnap : snap ≠ nullSnap) (ref : Frame K) (s s' : Sub K D) (f : Option (Frame K)) (tr : List (Pass K))
    (turns : (Fin 3 → K) → Fin 3 → ℤ) (free : (Fin 3 → K) → Fin 3 → K) (hfree : ∀ x j, x j = free x j + turns x j * ph.boxsize) (c : Fin 3 → K)
    (hnear : ∀ x ∈ ref.pos :: (bodiesOf body s.particles).map Body.pos, ∀ j, |free x j - c j| < ph.boxsize / 4)
    (hbox : ∀ x ∈ ref.pos :: (bodiesOf body s.particles).map Body.pos, ∀ y ∈ ref.pos :: (bodiesOf body s.particles).map Body.pos, ∀ j,
      |turns x j - turns y j| ≤ 1)
    (h : unbindBodies cfg ph sortE shuffle junk way body fuel snap ref s = .ok (s', f, tr)) (hn : 2 ≤ s.particles.length)
    (hm : ∀ b ∈ bodiesOf body s.particles, 0 < b.mass) (hmin : 0 < cfg.minNum) (hsamp : cfg.maxSample = 0 ∨ s.particles.length ≤ cfg.maxSample)
    (hbr : tr.dropLast.Pairwise (fun p q => Pass.Brisk q → Pass.Brisk p)) :
    (Unbinds (specificEnergy (fun x y d => nearest ph.boxsize (x d - y d)) field (ph.hz * ph.scale) ph.withThermal) (CentreInBox ph.boxsize free) cfg.minNum
        (Enough cfg) ref (bodiesOf body s.particles) none ∧ f = none ∧ s'.nbound = 1 ∧ s'.snapDeath ≠ nullSnap) ∨
    ∃ g, Unbinds (specificEnergy (fun x y d => nearest ph.boxsize (x d - y d)) field (ph.hz * ph.scale) ph.withThermal) (CentreInBox ph.boxsize free) cfg.minNum
        (Enough cfg) ref (bodiesOf body s.particles) (some (bodiesOf body (s'.particles.take s'.nbound), g)) ∧ f = some g ∧ s'.snapDeath = nullSnap :=
  unbinds_box cfg ph hper hB hfl _ field _ hex.near (fun _ => 0) sortE hs shuffle junk way body fuel snap hsnap ref s s' f tr turns free hfree c hnear hbox h hn
    (fun b hb => ⟨hm b hb, trivial⟩) (slack_zero _) hmin hsamp hbr

/-- C76: the tree of the program is such a solver if every node is opened (opening angle 0). `treeDist2` is the square of the distance to the nearest
image, `softPotential` the softened potential; see C41. -/
theorem C76_tree_exact [FloorRing K] (periodic : Bool) (L : K) (sqrt : K → K) (hq : sqrt 0 = 0) (soft : K) (hsoft : 0 < soft) (G scale : K)
    (res resHalf : K) (hres : res = 2 * resHalf) (rand : Nat → Nat → Nat) (old : Nat → List Int) (fuel : Nat) (hL : periodic = true → 0 < L) :
    ExactGravity (treeSolver periodic L sqrt soft 0 G scale res resHalf rand old fuel)
      (fun x w => softPotential sqrt soft w.1 (treeDist2 periodic L w.2 x) * G / scale) (1 / soft * G / scale) := by
  constructor
  · intro k bs pot target tm p hpos hsolve hpot
    unfold treeSolver at hsolve
    obtain ⟨t, ht, hsolve⟩ := bind_ok_inv hsolve
    injection hsolve with hsolve
    subst hsolve
    have hlen : (bs.map Prod.snd).length = bs.length := List.length_map _
    have hne : bs ≠ [] := by
      rintro rfl
      cases ht
    let m : Nat → K := fun i => ((bs[i]?).map Prod.fst).getD 0
    let x : Nat → Fin 3 → K := fun i => ((bs[i]?).map Prod.snd).getD (fun _ => 0)
    have hc : Content (bs.map Prod.snd) 0 bs.length x := by
      refine ⟨by simpa using hne, by simp, by simp, fun p hp => ?_⟩
      simp [x, List.getElem?_eq_getElem hp]
    have hm : Masses (bs.map Prod.fst) bs.length m := by
      intro p hp
      refine ⟨by simp [m, List.getElem?_eq_getElem hp], ?_⟩
      simp only [m, List.getElem?_eq_getElem hp, Option.map_some, Option.getD_some]
      exact hpos _ (List.getElem_mem hp)
    obtain ⟨l, cls, hl, hu, e⟩ := potential_used hres hc hm ht periodic L sqrt soft 0 G scale target tm
    rw [hlen, e] at hpot
    injection hpot with hpot
    have hlt : ∀ p ∈ l, p < bs.length := fun p hp => List.mem_range.1 (hl.mem_iff.1 hp)
    rw [point_clusters (f := fun p => treeDist2 periodic L (x p) target) (fun cl hcl p hp => ?_), hu.parts, (hl.map _).sum_eq] at hpot
    · have hsum : ((List.range bs.length).map (fun p => softPotential sqrt soft (m p) (treeDist2 periodic L (x p) target))) =
          bs.map (fun w => softPotential sqrt soft w.1 (treeDist2 periodic L w.2 target)) := by
        apply List.ext_getElem (by simp)
        intro i h1 h2
        have hi : i < bs.length := by simpa using h2
        simp [m, x, List.getElem?_eq_getElem hi]
      have hscale : ∀ ws : List (Weighted K), (ws.map (fun w => softPotential sqrt soft w.1 (treeDist2 periodic L w.2 target) * G / scale)).sum =
          (ws.map (fun w => softPotential sqrt soft w.1 (treeDist2 periodic L w.2 target))).sum * G / scale := by
        intro ws
        induction ws with
        | nil => simp
        | cons w ws ih => rw [List.map_cons, List.sum_cons, ih, List.map_cons, List.sum_cons]; ring
      rw [hsum] at hpot
      rw [← hpot, hscale]
      ring
    · have hsub : ∀ p ∈ cl.members, p ∈ l := by
        intro p hp
        rw [← hu.parts]
        exact List.mem_flatten.2 ⟨_, List.mem_map.2 ⟨cl, hcl, rfl⟩, hp⟩
      rw [hu.sep cl hcl, point_members (fun p hp => (hm p (hlt p (hsub p hp))).2) (hu.centre cl hcl) (hu.allowed cl hcl) p hp]
  · intro x m
    have h0 : treeDist2 periodic L x x = 0 := by
      have ho : ∀ d, treeOffset periodic L x x d = 0 := by
        intro d
        unfold treeOffset nearest
        cases periodic with
        | false => simp
        | true =>
          have := hL rfl
          simp only [sub_self, if_true]
          rw [if_neg (by linarith [half_pos this]), if_neg (by linarith [half_pos this])]
      simp [treeDist2, ho]
    simp only
    rw [h0, softPotential_zero hq hsoft]
    ring

end Loop
end HBT.Props
