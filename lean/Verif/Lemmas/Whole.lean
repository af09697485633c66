import Verif.Props.Run
import Verif.Lemmas.Origin
/-!
# Runs in which no particle is ever unbound
-/
set_option linter.unusedSectionVars false
namespace HBT
open HBT.Model HBT.Spec HBT.Props
variable {K D E : Type}

/-- All particles are bound. -/
def Whole (s : Sub K D) : Prop := s.nbound = s.particles.length

theorem refine_whole [LinearOrder E] [Zero E] [MassSum K] {cfg : UnbindConfig} {env : Nat → UnbindEnv K D E}
    (hok : RefineOk cfg env) (hrelax : Keeps cfg.fl cfg.relax) {snap : Int} {subs : List (Sub K D)} {nold : Nat} {groups heads : List (List Nat)} {field : List Nat}
    (h : Layout subs nold groups heads field) {fuel : Nat} (hfuel : subs.length ≤ fuel) {order lone : List Nat}
    (ho : order.Perm (List.range groups.length))
    (hlone : lone.Perm (field ++ (List.range (subs.length - nold)).map (nold + ·)))
    (hneg : ∀ i k j, (env i).energy k j < 0) (hone : OrphansSingle subs) {out : List (Sub K D)}
    (e : refineParticles cfg env snap fuel order lone groups heads subs = .ok out) : ∀ s ∈ out, Whole s := by
  obtain ⟨mid, e', hl, hq, _⟩ := refine_layout hok snap h hfuel ho hlone
  rw [e] at e'
  cases e'
  intro s hs
  obtain ⟨v, hv, rfl⟩ := List.mem_map.1 hs
  obtain ⟨i, hi⟩ := List.getElem?_of_mem hv
  obtain ⟨u, u', e, a1, a2, a3⟩ := hq i (by rw [← hl]; exact (List.getElem?_eq_some_iff.1 hi).1)
  rw [hi] at a2
  cases a2
  refine truncate_whole hok.min hrelax a3 (hneg i) (Or.inl fun hu => ?_)
  exact hone u (List.mem_of_getElem? a1) (by unfold Resolved; omega)

theorem unglue_content {c n : Nat} {st st' : List (Sub K D)} (e : unglue c n st = .ok st') (i : Nat) :
    (st'[i]?).map (fun s => (s.nbound, s.particles)) = (st[i]?).map (fun s => (s.nbound, s.particles)) := by
  unfold unglue at e
  obtain ⟨s, e1, e⟩ := bind_eq_ok e
  obtain ⟨hc, rfl⟩ : ∃ h : c < st.length, st[c] = s := by
    unfold Outcome.get at e1
    cases hs : st[c]? with
    | none => rw [hs] at e1; cases e1
    | some x => rw [hs] at e1; cases e1; exact List.getElem?_eq_some_iff.1 hs
  rw [Outcome.set_of_lt hc] at e
  cases e
  by_cases hic : i = c
  · subst hic
    rw [List.getElem?_set_self hc, List.getElem?_eq_getElem hc]
    rfl
  · rw [List.getElem?_set_ne (Ne.symm hic)]

theorem unglueAll_content {groups : List (List Nat)} {before : List (Sub K D)} (i : Nat) : ∀ {order : List Nat} {st st' : List (Sub K D)},
    runAll (unglueHost groups before) order st = .ok st' →
    (st'[i]?).map (fun s => (s.nbound, s.particles)) = (st[i]?).map (fun s => (s.nbound, s.particles))
  | [], st, st', e => by
    cases e; rfl
  | h :: order, st, st', e => by
    rw [runAll] at e
    obtain ⟨st1, e1, e2⟩ := bind_eq_ok e
    rw [unglueAll_content i e2]
    unfold unglueHost at e1
    obtain ⟨g, _, e1⟩ := bind_eq_ok e1
    cases g with
    | nil => cases e1; rfl
    | cons c t =>
      obtain ⟨n, _, e1⟩ := bind_eq_ok e1
      exact unglue_content e1 i

theorem merge_whole [LinearOrder E] [Zero E] [MassSum K] {cfg : UnbindConfig} {env : Nat → UnbindEnv K D E}
    (hok : RefineOk cfg env) (hrelax : Keeps cfg.fl cfg.relax) (mass : D → K) (hmass : ∀ i, (env i).mass = mass) (on : Bool) (sunk : Nat → Nat → Bool)
    {snap : Int} (hsnap : snap ≠ nullSnap) {before : List (Sub K D)} {nold : Nat} {groups heads : List (List Nat)} {field : List Nat}
    (h : Layout before nold groups heads field) (hset : ∀ s ∈ before, Settled cfg.minNum s)
    {fuel : Nat} (hfuel : before.length < fuel) {order each : List Nat}
    (ho : order.Perm (List.range groups.length)) (he : each.Perm (List.range before.length))
    (hneg : ∀ i k j, (env i).energy k j < 0) (hw : ∀ s ∈ before, Whole s) {out : List (Sub K D)}
    (e : mergeSubhalos cfg env mass on sunk snap fuel order each groups heads before = .ok out) : ∀ s ∈ out, Whole s := by
  obtain ⟨glued, hosts, st, merged, traps, e1, e2, e3, hd⟩ := detect_ok sunk snap h hfuel ho he
  rw [mergeSubhalos, e1, Outcome.bind_ok, e2, Outcome.bind_ok, e3, Outcome.bind_ok] at e
  have key : ∀ {on : Bool} {merges : Nat → Option Nat} {middle : Nat → List (Particle D)}
      (hm : MergingCore on cfg.minNum mass snap (Contains before groups) sunk before out traps merges middle)
      (i : Nat) (s' : Sub K D), out[i]? = some s' → (∀ j, merges j ≠ some i) → Whole s' := by
    intro on merges middle hm i s' hs' hj
    have hi : i < before.length := by rw [← hm.length]; exact (List.getElem?_eq_some_iff.1 hs').1
    cases hmi : merges i with
    | some p =>
      obtain ⟨a1, a2, a3, _⟩ := hm.away i p _ s' (List.getElem?_eq_getElem hi) hs' hmi
      unfold Whole
      omega
    | none =>
      obtain ⟨a1, a2, a3, _⟩ := hm.still i _ s' (List.getElem?_eq_getElem hi) hs' hmi hj
      unfold Whole
      rw [a1, a3]
      exact hw _ (List.getElem_mem hi)
  cases on with
  | false =>
    obtain ⟨out', e4, hm⟩ := mergingCore_off (cfg := cfg) mass sunk h hd ho (fun _ => [])
    simp only [Bool.false_eq_true, if_false] at e
    rw [Outcome.bind_ok, e4] at e
    cases e
    intro s hs
    obtain ⟨i, hi⟩ := List.getElem?_of_mem hs
    refine key hm i s hi (fun j hj => ?_)
    cases hb : before[j]? with
    | none => rw [hm.beyond j hb] at hj; cases hj
    | some t => exact absurd ((mergesOf_iff hb i).1 hj).1 (by decide)
  | true =>
    obtain ⟨done, mid, e4, hl4, hq4, hc4, hwm, _⟩ := mergeTrapped_ok hok hrelax mass hmass sunk hsnap h hset hd hfuel ho he
    obtain ⟨out', e5, hm⟩ := mergingCore_on hok.min mass sunk h hset hd ho hl4 hq4
    simp only [if_true] at e
    rw [e4, Outcome.bind_ok, e5] at e
    cases e
    intro s hs
    obtain ⟨i, hi⟩ := List.getElem?_of_mem hs
    by_cases hj : ∃ j, mergesOf true before traps j = some i
    · have hc := unglueAll_content i e5
      rw [hi] at hc
      cases hdi : done[i]? with
      | none => rw [hdi] at hc; cases hc
      | some v =>
        rw [hdi] at hc
        have h1 := hwm hneg i v hj hdi
        simp only [Option.map_some, Option.some.injEq, Prod.mk.injEq] at hc
        unfold Whole
        rw [hc.1, hc.2, h1]
    · exact key hm i s hi (fun j hj' => hj ⟨j, hj'⟩)

/-- One snapshot, with negative energies, after a state in which all particles are bound. -/
theorem snapshot_whole [LinearOrder K] [MassSum K] [LinearOrder E] [Zero E] {Q P : Nat} {par : Params K D} (hpar : par.Ok)
    {prev : Fin Q → List (Sub K D)} {d : Snapshot K D E P} (hx : InputsOk par prev d.toInputs) (hc : Computed par d) (hf : SnapFacts par prev d)
    (hneg : ∀ r i k j, (d.env r i).energy k j < 0) (hneg' : ∀ r i k j, (d.env' r i).energy k j < 0)
    (hw : ∀ r, ∀ s ∈ prev r, Whole s) (r : Fin P) : (∀ s ∈ d.refined r, Whole s) ∧ ∀ s ∈ d.out r, Whole s := by
  have hsnap : d.snap ≠ nullSnap := by
    have := hx.snap
    unfold nullSnap
    omega
  have hlen : (d.masked r).length = (d.old r).length + (d.new r).length := by
    rw [← (hf.masked_ r).length_eq, (allFramed_iff.1 (hf.framed r)).1, List.length_append]
  have hlenf : (d.refined r).length = (d.old r).length + (d.new r).length := by rw [(hf.refined_ r).length, hlen]
  have hfwd : ∀ (i : Nat) (s' : Sub K D), (d.refined r)[i]? = some s' → ∃ s, (d.masked r)[i]? = some s ∧
      RefinedSub par.cfg.minNum par.mass d.snap s s' := by
    intro i s' hs'
    have hi : i < (d.masked r).length := by rw [hlen, ← hlenf]; exact (List.getElem?_eq_some_iff.1 hs').1
    obtain ⟨u, hu, hr⟩ := (hf.refined_ r).each i _ (List.getElem?_eq_getElem hi)
    rw [hs'] at hu
    cases hu
    exact ⟨_, List.getElem?_eq_getElem hi, hr⟩
  have hml : Layout (d.masked r) (d.old r).length (d.groups r) (d.nested r).2 (d.field r) := by
    refine (hf.layout r).congr ?_
    rw [List.forall₂_iff_get]
    refine ⟨by omega, fun i h1 h2 => ?_⟩
    simp only [List.get_eq_getElem]
    obtain ⟨s, hs, hr⟩ := hfwd i _ (List.getElem?_eq_getElem h1)
    rw [List.getElem?_eq_getElem h2] at hs
    cases hs
    exact ⟨hr.same.rank.symm, hr.same.nested.symm⟩
  have hone : OrphansSingle (d.masked r) := by
    intro s2 hs2 hn
    obtain ⟨i, hi⟩ := List.getElem?_of_mem hs2
    obtain ⟨s1, hs1, ps, rfl, hsub, _⟩ := forall₂_get' (hf.masked_ r) i s2 hi
    obtain ⟨s0, hs0, hfr⟩ := forall₂_get' (hf.framed r) i s1 hs1
    unfold Framed at hfr
    have hle := hsub.length_le
    have h1 : s1.particles = s0.particles := by rw [hfr]; rfl
    have h2 : s1.nbound = s0.nbound := by rw [hfr]; rfl
    have hn' : ¬ 1 < s0.nbound := by rw [← h2]; exact hn
    simp only [Sub.withParticles_particles]
    rw [h1] at hle
    refine hle.trans ?_
    have hm := List.mem_of_getElem? hs0
    rw [List.mem_append] at hm
    rcases hm with ho | ho
    · obtain ⟨j, hj⟩ := List.getElem?_of_mem ho
      obtain ⟨u, hu, hcar⟩ := forall₂_get' (hx.carried r) j s0 hj
      obtain ⟨r', hr'⟩ := mem_everyone.1 (hx.moved.mem_iff.1 (mem_everyone.2 ⟨r, List.mem_of_getElem? hu⟩))
      have hwu : u.nbound = u.particles.length := hw r' u hr'
      rcases hcar.content with h | h | h
      · omega
      · omega
      · have := h.2.2.2.2 hwu
        omega
    · have := (hx.born r s0 ho).1
      omega
  have hrw : ∀ s ∈ d.refined r, Whole s :=
    refine_whole ⟨fun i => (hx.env r i).1, hpar.prec, hpar.min⟩ hpar.relax hml (le_refl _) (hx.hostOrder r) (by
      rw [hlen, Nat.add_sub_cancel_left]
      exact hx.lone r) (hneg r) hone (hc.refine_ r)
  have hmw : ∀ s ∈ d.merged r, Whole s :=
    merge_whole ⟨fun i => (hx.env' r i).1, hpar.prec, hpar.min⟩ hpar.relax par.mass (fun i => (hx.env' r i).2) par.merging (d.sunk r) hsnap
      (hf.layout r) (fun s hs => by
        obtain ⟨i, hi⟩ := List.getElem?_of_mem hs
        obtain ⟨u, _, hr⟩ := hfwd i s hi
        exact refinedSub_settled hpar.min hsnap hr) (Nat.lt_succ_self _) (hx.mergeOrder r) (by rw [hlenf]; exact hx.each r) (hneg' r) hrw (hc.merge r)
  refine ⟨hrw, fun s hs => ?_⟩
  obtain ⟨N, _, hreg⟩ := hf.updated
  obtain ⟨reg, hre, hF⟩ := hreg r
  obtain ⟨i, hi⟩ := List.getElem?_of_mem hs
  obtain ⟨u, hu, hren⟩ := forall₂_get' hF i s hi
  have hp := updated_plain hren.1
  have huw : Whole u := by
    have hm := List.mem_of_getElem? hu
    rw [hre, List.mem_append] at hm
    rcases hm with hm | hm
    · exact hmw u (List.mem_of_mem_take hm)
    · obtain ⟨k, hk⟩ := List.getElem?_of_mem hm
      obtain ⟨x, hx', rfl⟩ := numbered_get _ _ _ _ hk
      have := hmw x (List.mem_of_mem_drop (List.mem_of_mem_filter (List.mem_of_getElem? hx')))
      exact this
  unfold Whole at huw ⊢
  rw [hp.1, hp.2.1, huw]

/-- Whole runs. -/
theorem run_whole [LinearOrder K] [MassSum K] [LinearOrder E] [Zero E] {par : Params K D} (hpar : par.Ok)
    {tr : List (Σ P, Snapshot K D E P)} (h : Run par tr)
    (hneg : ∀ y ∈ tr, ∀ r i k j, (y.2.env r i).energy k j < 0 ∧ (y.2.env' r i).energy k j < 0) :
    ∀ r, ∀ s ∈ (latest tr).2 r, Whole s := by
  induction h with
  | start => intro r; exact r.elim0
  | next tr d h ok later comp ih =>
    have ih' := ih (fun y hy => hneg y (List.mem_cons_of_mem _ hy))
    obtain ⟨hf, _, _⟩ := run_facts hpar (.next tr d h ok later comp)
    have hd := hneg ⟨_, d⟩ List.mem_cons_self
    exact fun r => (snapshot_whole hpar ok comp hf (fun r i k j => (hd r i k j).1) (fun r i k j => (hd r i k j).2) ih' r).2

end HBT
