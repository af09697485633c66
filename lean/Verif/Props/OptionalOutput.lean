import Verif.Model.OptionalOutput
import Verif.Lemmas.Unbind
import Verif.Props.ReaderExample
import Verif.Props.Unbind
/-!
# C79: optional output. Properties and binding energies stand in the order of the particles
-/
namespace HBT.Props
open HBT HBT.Spec HBT.Model
variable {K D E : Type}

/-! ## Energies after unbinding -/

theorem elist_loop [LT E] [DecidableLT E] [Zero E] (cfg : UnbindConfig) (env : UnbindEnv K D E) : ∀ (fuel k : Nat) (l : List (PE E)) (n : Nat),
    unbindLoop cfg env fuel k l n = unbindElist cfg env fuel k l n >>= fun r => .ok (r.2.map (fun nb => (r.1, nb)))
  | 0, _, _, _ => rfl
  | fuel + 1, k, l, n => by
    rw [unbindLoop, unbindElist]
    cases partitionEnergy (setEnergies (env.energy k) n l) n with
    | ok r =>
      rw [Outcome.bind_ok, Outcome.bind_ok]
      simp only
      split_ifs with h1 h2 h3
      · rfl
      · cases refineOrder env cfg.maxSample _ <;> rfl
      · rfl
      · exact elist_loop cfg env fuel (k + 1) _ _
    | ub => rfl
    | abort => rfl
    | diverge => rfl

theorem loopInv_perm [LinearOrder E] [Zero E] {energy : Nat → Nat → E} {k : Nat} {l l2 : List (PE E)} {n : Nat} (h : LoopInv energy k l n)
    (ht : (l2.take n).Perm (l.take n)) (hd : l2.drop n = l.drop n) : LoopInv energy k l2 n := by
  have hp : l2.Perm l := by
    rw [← List.take_append_drop n l2, ← List.take_append_drop n l, hd]
    exact ht.append (List.Perm.refl _)
  refine ⟨by rw [hp.length_eq]; exact (hp.map _).trans h.perm, by rw [hp.length_eq]; exact h.le, fun x hx => h.bound x (ht.mem_iff.1 hx), fun x hx => ?_⟩
  rw [hd] at hx
  exact h.unbound x hx

/-- What `Elist` holds after the loop: at the exit by convergence, the energies of the last iteration. -/
theorem elist_spec [LinearOrder E] [Zero E] {cfg : UnbindConfig} {env : UnbindEnv K D E} (hs : SortsBy PE.e env.sortE) :
    ∀ (fuel k : Nat) (l : List (PE E)) (n : Nat) (l' : List (PE E)) (o : Option Nat), LoopInv env.energy k l n → unbindElist cfg env fuel k l n = .ok (l', o) →
      l'.length = l.length ∧ ∀ nb, o = some nb → ∃ last, LoopInv env.energy (last + 1) l' nb ∧ cfg.minNum ≤ nb ∧ (∀ x ∈ l'.take nb, x.e = env.energy last x.pid) ∧
        (¬ (0 < cfg.maxSample ∧ cfg.refine ∧ cfg.maxSample < nb) → (l'.take nb).Pairwise (fun a b => a.e ≤ b.e)) ∧
        ((0 < cfg.maxSample ∧ cfg.refine ∧ cfg.maxSample < nb) →
          (∀ a ∈ l'.take cfg.maxSample, ∀ b ∈ (l'.take nb).drop cfg.maxSample, a.e ≤ b.e) ∧
          ((l'.take nb).drop cfg.maxSample).Pairwise (fun a b => a.e ≤ b.e)) := by
  intro fuel
  induction fuel with
  | zero => intro k l n l' o _ h; cases h
  | succ fuel ih =>
    intro k l n l' o hinv h
    obtain ⟨m, nb, e, hle, hl', hen, hinv1⟩ := unbind_step hs hinv
    have hnl := hinv.le
    rw [unbindElist, e, Outcome.bind_ok] at h
    simp only at h
    have hlen : (m.take nb).length = nb := by simp; omega
    set B := m.take nb ++ env.sortE ((m.take n).drop nb) ++ m.drop n with hB
    have hBt : B.take nb = m.take nb := by
      rw [hB, List.append_assoc, List.take_append_of_le_length (by omega), List.take_of_length_le (by omega)]
    have hBl : B.length = l.length := by
      obtain ⟨hsp, _⟩ := hs ((m.take n).drop nb)
      rw [hB]
      simp [hsp.length_eq]
      omega
    split_ifs at h with h1 h2 h3
    · cases h
      exact ⟨hl', fun nb h => by cases h⟩
    · obtain ⟨hsp, hso⟩ := hs (B.take nb)
      have hsl : (env.sortE (B.take nb)).length = nb := by rw [hsp.length_eq, hBt, hlen]
      set C := env.sortE (B.take nb) ++ B.drop nb with hC
      have hCt : C.take nb = env.sortE (B.take nb) := by
        rw [hC, List.take_append_of_le_length (by omega), List.take_of_length_le (by omega)]
      have hCd : C.drop nb = B.drop nb := by
        rw [hC, List.drop_append_of_le_length (by omega), List.drop_of_length_le (by omega), List.nil_append]
      have hCl : C.length = l.length := by
        rw [hC, List.length_append, hsl, List.length_drop, hBl]
        omega
      obtain ⟨l2, e2, hdr, hpt, _⟩ := refineOrder_spec (l := C) hs (size := cfg.maxSample) (by rw [hCl]; omega)
      rw [e2, Outcome.bind_ok] at h
      cases h
      have hl2 : l'.length = C.length := by
        rw [← List.take_append_drop cfg.maxSample l', ← List.take_append_drop cfg.maxSample C, hdr, List.length_append, List.length_append, hpt.length_eq]
      have hdn : l'.drop nb = C.drop nb := by
        have := congrArg (List.drop (nb - cfg.maxSample)) hdr
        rw [List.drop_drop, List.drop_drop] at this
        rwa [show cfg.maxSample + (nb - cfg.maxSample) = nb by omega] at this
      have hdt : (l'.take nb).drop cfg.maxSample = (C.take nb).drop cfg.maxSample := by
        rw [List.drop_take, List.drop_take, hdr]
      have htn : (l'.take nb).Perm (C.take nb) := by
        rw [← List.take_append_drop cfg.maxSample (l'.take nb), ← List.take_append_drop cfg.maxSample (C.take nb), hdt, List.take_take, List.take_take,
          Nat.min_eq_left (by omega)]
        exact hpt.append (List.Perm.refl _)
      have htp : (l'.take nb).Perm (B.take nb) := htn.trans (by rw [hCt]; exact hsp)
      refine ⟨hl2.trans hCl, fun nb' hnb => ?_⟩
      cases hnb
      refine ⟨k, loopInv_perm hinv1 htp (hdn.trans hCd), by omega, fun x hx => ?_, fun hn => absurd h3 hn, fun _ => ?_⟩
      · have := htp.mem_iff.1 hx
        rw [hBt] at this
        exact hen x this
      · rw [hdt, hCt]
        have hsplit := hso
        rw [← List.take_append_drop cfg.maxSample (env.sortE (B.take nb)), List.pairwise_append] at hsplit
        refine ⟨fun a ha b hb => hsplit.2.2 a ?_ b hb, hsplit.2.1⟩
        have := hpt.mem_iff.1 ha
        rwa [hC, List.take_append_of_le_length (by omega)] at this
    · cases h
      obtain ⟨hsp, hso⟩ := hs (B.take nb)
      have hsl : (env.sortE (B.take nb)).length = nb := by rw [hsp.length_eq, hBt, hlen]
      have hCt : (env.sortE (B.take nb) ++ B.drop nb).take nb = env.sortE (B.take nb) := by
        rw [List.take_append_of_le_length (by omega), List.take_of_length_le (by omega)]
      have hCd : (env.sortE (B.take nb) ++ B.drop nb).drop nb = B.drop nb := by
        rw [List.drop_append_of_le_length (by omega), List.drop_of_length_le (by omega), List.nil_append]
      refine ⟨by rw [List.length_append, hsl, List.length_drop, hBl]; omega, fun nb' hnb => ?_⟩
      cases hnb
      refine ⟨k, loopInv_perm hinv1 (by rw [hCt]; exact hsp) hCd, by omega, fun x hx => ?_, fun _ => by rw [hCt]; exact hso, fun hn => absurd hn h3⟩
      rw [hCt] at hx
      have := hsp.mem_iff.1 hx
      rw [hBt] at this
      exact hen x this
    · obtain ⟨a, b⟩ := ih (k + 1) B nb l' o hinv1 h
      exact ⟨a.trans hBl, b⟩

theorem slice_front {α : Type} {l : List α} {n : Nat} (h : n ≤ l.length) : slice l 0 n = .ok (l.take n) := by
  rw [slice, if_pos (by omega), List.drop_zero]

/-- C79. After unbinding a subhalo has as many energies as bound particles. If it is resolved, then they are those of the bound particles in the last iteration, in the order of the
particles; none is positive; and they ascend, except among the first `MaxSampleSize` if these have been put in order by refined energies. -/
theorem C79_energies [LinearOrder E] [Zero E] [MassSum K] {cfg : UnbindConfig} {env : UnbindEnv K D E} (henv : EnvOk env)
    (hprec : Stops cfg.fl cfg.prec) (hmin : 2 ≤ cfg.minNum) {fuel : Nat} {snap : Int} (s : Sub K D) (hfuel : s.particles.length < fuel) :
    ∃ s' en, unbindStored cfg env fuel snap s = .ok (s', en) ∧ unbind cfg env fuel snap s = .ok s' ∧ en.length = s'.nbound ∧
      (1 < s'.nbound → ∃ last pids, BoundPart cfg.minNum env.energy (unbindSource cfg env s.particles) last pids s' ∧
        en = (pids.take s'.nbound).map (env.energy last) ∧ (∀ x ∈ en, x ≤ 0) ∧
        (¬ (0 < cfg.maxSample ∧ cfg.refine ∧ cfg.maxSample < s'.nbound) → en.Pairwise (· ≤ ·)) ∧
        ((0 < cfg.maxSample ∧ cfg.refine ∧ cfg.maxSample < s'.nbound) →
          (∀ a ∈ en.take cfg.maxSample, ∀ b ∈ en.drop cfg.maxSample, a ≤ b) ∧ (en.drop cfg.maxSample).Pairwise (· ≤ ·))) := by
  set s1 := if s.particles.length < cfg.minNum then die snap s else s with hs1
  have hps : s1.particles = s.particles := by
    rw [hs1]
    split
    · exact (die_same snap s).2.1
    · rfl
  rw [unbindStored, unbind]
  simp only
  rw [← hs1]
  match hmatch : s1.particles with
  | [] => exact ⟨_, _, rfl, rfl, rfl, fun h => absurd h (by simp [setBound])⟩
  | [p] => exact ⟨_, _, rfl, rfl, rfl, fun h => absurd h (by simp [setBound])⟩
  | p0 :: p1 :: rest =>
    have hlen : s.particles = p0 :: p1 :: rest := by rw [← hps, hmatch]
    have hsrc : (unbindSource cfg env s.particles).Perm s.particles := unbindSource_perm cfg henv _
    have hN : (unbindSource cfg env s.particles).length = s.particles.length := hsrc.length_eq
    simp only
    rw [← hlen]
    set l0 : List (PE E) := (List.range s.particles.length).map (fun i => ⟨i, env.junk i⟩) with hl0
    have hl0len : l0.length = s.particles.length := by simp [hl0]
    have hinv : LoopInv env.energy 0 l0 s.particles.length := by
      constructor
      · rw [hl0]
        simp [Function.comp_def]
      · omega
      · intro _ _ k hk
        omega
      · intro x hx
        rw [List.drop_of_length_le (by omega)] at hx
        cases hx
    have hfold : (if 0 < cfg.maxSample ∧ cfg.maxSample < s.particles.length then env.shuffle s.particles else s.particles)
        = unbindSource cfg env s.particles := rfl
    rw [hfold]
    obtain ⟨l', o, he⟩ : ∃ l' o, unbindElist cfg env fuel 0 l0 s.particles.length = .ok (l', o) := by
      have hok : ∃ x, unbindLoop cfg env fuel 0 l0 s.particles.length = .ok x := by
        rcases unbindLoop_spec henv.sort hprec fuel 0 l0 s.particles.length hfuel hinv with ⟨e, _⟩ | ⟨l', nb, _, e, _⟩
        · exact ⟨_, e⟩
        · exact ⟨_, e⟩
      obtain ⟨x, hx⟩ := hok
      rw [elist_loop] at hx
      obtain ⟨y, hy, _⟩ := bind_eq_ok hx
      exact ⟨y.1, y.2, hy⟩
    obtain ⟨hl', hspec⟩ := elist_spec henv.sort fuel 0 l0 _ l' o hinv he
    rw [elist_loop, he, Outcome.bind_ok, Outcome.bind_ok, Outcome.bind_ok]
    cases o with
    | none =>
      simp only [Option.map_none]
      obtain ⟨ps, e2, _, _⟩ := restoreFirst_spec (id := p0.id) (ps := unbindSource cfg env s.particles)
        ⟨p0, hsrc.mem_iff.2 (by rw [hlen]; simp), rfl⟩
      have hone : 1 ≤ (l'.map PE.e).length := by
        rw [List.length_map, hl', hl0len, hlen]
        simp
      rw [e2, Outcome.bind_ok, Outcome.bind_ok, slice_front hone, Outcome.bind_ok]
      refine ⟨_, _, rfl, rfl, ?_, fun h => absurd h (by simp [setBound])⟩
      rw [List.length_take]
      show min 1 _ = 1
      omega
    | some nb =>
      simp only [Option.map_some]
      obtain ⟨last, hinv', hnb, hen, hso, hre⟩ := hspec nb rfl
      have hl'l : l'.length = s.particles.length := by rw [hl', hl0len]
      have hpid : (l'.map PE.pid).Perm (List.range (unbindSource cfg env s.particles).length) := by
        rw [hN, ← hl'l]
        exact hinv'.perm
      obtain ⟨ps, e2, hf⟩ := pickAll_eq (unbindSource cfg env s.particles) (l'.map PE.pid)
        (fun i hi => List.mem_range.1 (hpid.mem_iff.1 hi))
      have hpsl : ps.length = s.particles.length := by rw [← hf.length_eq, List.length_map, hl'l]
      have hle := hinv'.le
      rw [e2, Outcome.bind_ok, Outcome.bind_ok, slice_front (by rw [List.length_map]; exact hle), Outcome.bind_ok]
      have htake : (l'.map PE.e).take nb = ((l'.map PE.pid).take nb).map (env.energy last) := by
        rw [← List.map_take, ← List.map_take, List.map_map]
        exact List.map_congr_left hen
      refine ⟨_, _, rfl, rfl, by simp [hle], fun _ => ⟨last, l'.map PE.pid, ⟨hnb, ?_, rfl, rfl, hpid, hf, ?_, ?_⟩, htake, ?_, ?_, ?_⟩⟩
      · show nb ≤ ps.length
        omega
      · intro i hi k hk
        change i ∈ (l'.map PE.pid).take nb at hi
        rw [← List.map_take] at hi
        obtain ⟨x, hx, rfl⟩ := List.mem_map.1 hi
        exact hinv'.bound x hx k (by omega)
      · intro i hi
        change i ∈ (l'.map PE.pid).drop nb at hi
        rw [← List.map_drop] at hi
        obtain ⟨x, hx, rfl⟩ := List.mem_map.1 hi
        obtain ⟨k', h1, h2⟩ := hinv'.unbound x hx
        exact ⟨k', by omega, h2⟩
      · intro x hx
        rw [← List.map_take] at hx
        obtain ⟨y, hy, rfl⟩ := List.mem_map.1 hx
        rw [hen y hy]
        exact hinv'.bound y hy last (by omega)
      · intro h
        rw [← List.map_take, List.pairwise_map]
        exact hso h
      · intro h
        have h' : 0 < cfg.maxSample ∧ cfg.refine = true ∧ cfg.maxSample < nb := h
        obtain ⟨r1, r2⟩ := hre h
        rw [List.take_take, Nat.min_eq_left (by omega), ← List.map_take, ← List.map_take, ← List.map_drop, List.pairwise_map]
        refine ⟨fun a ha b hb => ?_, r2⟩
        obtain ⟨x, hx, rfl⟩ := List.mem_map.1 ha
        obtain ⟨y, hy, rfl⟩ := List.mem_map.1 hb
        exact r1 x hx y hy

/-- C79. A subhalo that merges into another keeps its most bound particle, and the first of its energies still is the one of that particle. -/
theorem C79_merge [MassSum K] (mass : D → K) (sat host sat' host' : Sub K D) (en : List E) (h : mergeTo mass sat host = .ok (sat', host')) (hen : sat.nbound ≤ en.length) :
    sat'.nbound ≤ en.length ∧ (sat'.particles.zip en).take sat'.nbound <+: sat.particles.zip en := by
  unfold mergeTo at h
  split at h
  · cases h
    exact ⟨hen, List.take_prefix _ _⟩
  · rename_i hn
    split at h
    · cases h
    · rename_i p rest hp
      cases h
      refine ⟨by show 1 ≤ en.length; omega, ?_⟩
      cases en with
      | nil => simp at hen; omega
      | cons e en =>
        rw [hp]
        show List.take 1 (List.zip [p] (e :: en)) <+: List.zip (p :: rest) (e :: en)
        exact ⟨List.zip rest en, by simp⟩

/-! Examples: four particles, of which two are left; with a minimum of three the subhalo is disrupted. -/

example : unbindStored (exUnbindCfg 2) (exUnbindEnv exEnergies) 5 7 exUnbindSub
    = .ok ({ exUnbindSub with particles := [⟨13, 8⟩, ⟨11, 2⟩, ⟨10, 1⟩, ⟨12, 4⟩], nbound := 2, mbound := 10 }, [-23, -21]) := by decide +kernel
example : ∃ s' en, unbindStored (exUnbindCfg 2) (exUnbindEnv exEnergies) 5 7 exUnbindSub = .ok (s', en) ∧ en.length = s'.nbound := by
  obtain ⟨s', en, h, _, h', _⟩ := C79_energies (cfg := exUnbindCfg 2) (env := exUnbindEnv exEnergies) (fuel := 5) (snap := 7) ⟨exESort_spec, fun _ => List.Perm.refl _⟩
    (stops_exact (by norm_num [exUnbindCfg])) (by decide) exUnbindSub (by decide)
  exact ⟨s', en, h, h'⟩
example : ∃ sat' host', mergeTo id { exUnbindSub with nbound := 2 } exUnbindSub = .ok (sat', host') ∧
    (sat'.particles.zip [-23, -21]).take sat'.nbound = [(⟨10, 1⟩, (-23 : Int))] := ⟨_, _, rfl, by decide +kernel⟩

/-- **C79.** The energy written for a disrupted subhalo is not that of the particle it keeps. Particle 10 was the most bound one and is kept as the only particle; it had energies -10
and 3 in the two iterations. The energy stored beside it is -21, that of another particle. -/
theorem C79_disrupted_energy : ∃ (cfg : UnbindConfig) (energy : Nat → Nat → Int) (s s' : Sub Int Int) (e : Int),
    unbindStored cfg (exUnbindEnv energy) 5 7 s = .ok (s', [e]) ∧ s'.nbound = 1 ∧ s'.snapDeath = 7 ∧
    s'.particles.head? = some ⟨10, 1⟩ ∧ s.particles[0]? = some ⟨10, 1⟩ ∧ ∀ k, energy k 0 ≠ e := by
  have h : (match unbindStored (exUnbindCfg 3) (exUnbindEnv exEnergies) 5 7 exUnbindSub with
    | .ok (s', [e]) => decide (s'.nbound = 1 ∧ s'.snapDeath = 7 ∧ s'.particles.head? = some ⟨10, 1⟩ ∧ e ≠ -10 ∧ e ≠ 3)
    | _ => false) = true := by decide +kernel
  split at h
  · rename_i s' e he
    obtain ⟨h1, h2, h3, h4, h5⟩ := of_decide_eq_true h
    refine ⟨_, _, _, s', e, he, h1, h2, h3, rfl, fun k => ?_⟩
    by_cases hk : k = 0
    · rw [exEnergies, if_neg (by decide), if_pos hk]
      exact fun h => h4 h.symm
    · rw [exEnergies, if_neg (by decide), if_neg hk, if_pos rfl]
      exact fun h => h5 h.symm
  · cases h

/-! ## The datasets -/

theorem propertyLists_ok (subs : List (Sub K D × List E)) (h : ∀ s ∈ subs, s.1.nbound ≤ s.1.particles.length) :
    propertyLists subs = .ok (subs.map (fun s => (s.1.particles.take s.1.nbound).map Particle.data)) := by
  induction subs with
  | nil => rfl
  | cons s rest ih =>
    rw [propertyLists, slice_front (h s List.mem_cons_self), Outcome.bind_ok, ih (fun x hx => h x (List.mem_cons_of_mem _ hx)), Outcome.bind_ok]
    rfl

theorem energyLists_ok (subs : List (Sub K D × List E)) (h : ∀ s ∈ subs, s.1.nbound ≤ s.2.length) :
    energyLists subs = .ok (subs.map (fun s => s.2.take s.1.nbound)) := by
  induction subs with
  | nil => rfl
  | cons s rest ih =>
    rw [energyLists, slice_front (h s List.mem_cons_self), Outcome.bind_ok, ih (fun x hx => h x (List.mem_cons_of_mem _ hx)), Outcome.bind_ok]
    rfl

/-- The optional datasets of a file. -/
def optFileOf (props ens : Bool) (subs : List (Sub K D × List E)) : OptFile D E where
  properties := if props then some (subs.map (fun s => (s.1.particles.take s.1.nbound).map Particle.data)) else none
  energies := if ens then some (subs.map (fun s => s.2.take s.1.nbound)) else none

theorem saveOptional_ok {P : Nat} (props ens : Bool) (st : Fin P → List (Sub K D × List E)) (hst : ∀ r, ∀ s ∈ st r, s.1.nbound ≤ s.1.particles.length)
    (hen : ens = true → ∀ r, ∀ s ∈ st r, s.1.nbound ≤ s.2.length) (ops : List (WriteOp P)) (disk : OptDisk D E) :
    ∃ disk', saveOptional props ens st ops disk = .ok disk' ∧ (∀ r, .sub r ∈ ops → disk' r.val = some (optFileOf props ens (st r))) ∧
      ∀ i, (∀ r : Fin P, .sub r ∈ ops → r.val ≠ i) → disk' i = disk i := by
  have hfile : ∀ r, writeOptional props ens (st r) = .ok (optFileOf props ens (st r)) := by
    intro r
    rw [writeOptional, propertyLists_ok _ (hst r)]
    cases ens with
    | false => cases props <;> rfl
    | true =>
      rw [energyLists_ok _ (hen rfl r)]
      cases props <;> rfl
  induction ops generalizing disk with
  | nil => exact ⟨disk, rfl, (fun r h => nomatch h), fun i _ => rfl⟩
  | cons o ops ih =>
    cases o with
    | sub r0 =>
      obtain ⟨d, h1, h2, h3⟩ := ih (fun i => if i = r0.val then some (optFileOf props ens (st r0)) else disk i)
      refine ⟨d, ?_, fun r hr => ?_, fun i hi => ?_⟩
      · show performOptional props ens st disk (.sub r0) >>= _ = _
        rw [performOptional, hfile, Outcome.bind_ok, Outcome.bind_ok]
        exact h1
      · by_cases hr' : .sub r ∈ ops
        · exact h2 r hr'
        · rcases List.mem_cons.1 hr with h | h
          · cases h
            rw [h3 r0.val (fun q hq he => hr' (by rw [← Fin.ext he]; exact hq)), if_pos rfl]
          · exact absurd h hr'
      · rw [h3 i (fun r hr => hi r (List.mem_cons_of_mem _ hr)), if_neg (fun h => hi r0 List.mem_cons_self h.symm)]
    | src r0 =>
      obtain ⟨d, h1, h2, h3⟩ := ih disk
      refine ⟨d, ?_, fun r hr => ?_, fun i hi => h3 i (fun r hr => hi r (List.mem_cons_of_mem _ hr))⟩
      · show performOptional props ens st disk (.src r0) >>= _ = _
        rw [performOptional, Outcome.bind_ok]
        exact h1
      · rcases List.mem_cons.1 hr with h | h
        · cases h
        · exact h2 r h

/-- C79. The optional datasets of every file that is written have a list for each list of `SubhaloParticles`, of the same length, and the k-th entry of a list is about the k-th particle
of that list: properties, energy. Nothing is read beyond the end of a vector. Reading gives the energies back. -/
theorem C79_written {P : Nat} (snapId : Int) (props ens : Bool) (st : Fin P → List (Sub K D × List E)) (hst : ∀ r, ∀ s ∈ st r, s.1.nbound ≤ s.1.particles.length)
    (hen : ens = true → ∀ r, ∀ s ∈ st r, s.1.nbound ≤ s.2.length) (ops : List (WriteOp P)) (disk : Disk K D) (opt : OptDisk D E) :
    ∃ disk' opt', saveOps snapId (fun r => (st r).map Prod.fst) ops disk = .ok disk' ∧ saveOptional props ens st ops opt = .ok opt' ∧
      ∀ r, .sub r ∈ ops → ∃ f o, disk'.sub r.val = some f ∧ opt' r.val = some o ∧
        (props = true → ∃ l, o.properties = some l ∧ l.length = f.boundIds.length ∧
          List.zipWith List.zip f.boundIds l = (st r).map (fun s => (s.1.particles.take s.1.nbound).map (fun p => (p.id, p.data)))) ∧
        (props = false → o.properties = none) ∧
        (ens = true → ∃ l, o.energies = some l ∧ l.map List.length = f.boundIds.map List.length ∧
          List.zipWith List.zip f.boundIds l = (st r).map (fun s => ((s.1.particles.map Particle.id).zip s.2).take s.1.nbound) ∧
          readStoredEnergies opt' r.val f.table.length = .ok l) ∧
        (ens = false → o.energies = none) := by
  obtain ⟨disk', h1, h2, _⟩ := saveOps_ok snapId (fun r => (st r).map Prod.fst) (by
    intro r s hs
    obtain ⟨x, hx, rfl⟩ := List.mem_map.1 hs
    exact hst r x hx) ops disk
  obtain ⟨opt', h3, h4, _⟩ := saveOptional_ok props ens st hst hen ops opt
  refine ⟨disk', opt', h1, h3, fun r hr => ⟨_, _, h2 r hr, h4 r hr, fun hp => ?_, fun hp => by simp [optFileOf, hp], fun he => ?_, fun he => by simp [optFileOf, he]⟩⟩
  · refine ⟨_, if_pos hp, by simp [fileOf], ?_⟩
    simp only [fileOf, List.map_map, Function.comp_def]
    rw [List.zipWith_map, List.zipWith_self]
    apply List.map_congr_left
    intro s _
    rw [idsOf, ← List.map_take, List.zip_map']
  · have hl : (st r).map (fun s => (s.2.take s.1.nbound).length) = (st r).map (fun s => ((idsOf s.1).take s.1.nbound).length) := by
      apply List.map_congr_left
      intro s hs
      have a := hst r s hs
      have b := hen he r s hs
      simp [idsOf]
      omega
    refine ⟨_, if_pos he, ?_, ?_, ?_⟩
    · simp only [fileOf, List.map_map, Function.comp_def]
      exact hl
    · simp only [fileOf, List.map_map, Function.comp_def]
      rw [List.zipWith_map, List.zipWith_self]
      apply List.map_congr_left
      intro s _
      rw [idsOf]
      exact (List.take_zipWith ..).symm
    · rw [readStoredEnergies, h4 r hr]
      simp only [optFileOf, he, if_true]
      rw [Outcome.assert, if_pos (by simp [fileOf]), Outcome.bind_ok]

theorem propertiesFrom_ok {root : SubRoot K D} {opts : OptDisk D E} {rd : Reader} {isnap : Int} : ∀ (ls : List (List (List D))) (i o k : Nat),
    (∀ (k : Nat) (l : List (List D)), ls[k]? = some l → ∃ f q, openFile root rd isnap (i + k) = .ok f ∧ f.table.length = l.length ∧ opts (i + k) = some q ∧ q.properties = some l) →
    propertiesFrom root opts rd isnap ((o + k : Nat) : Int) ls.length i o = (match ls.flatten[k]? with | some l => .ok l | none => .abort)
  | [], _, _, _, _ => rfl
  | l :: ls, i, o, k, h => by
    obtain ⟨f, q, h1, h2, h3, h4⟩ := h 0 l rfl
    rw [Nat.add_zero] at h1 h3
    rw [List.length_cons, propertiesFrom, h1, Outcome.bind_ok, List.flatten_cons, h2]
    by_cases hk : k < l.length
    · rw [if_pos (by push_cast; omega), h3]
      simp only
      rw [h4]
      simp only
      rw [show ((o + k : Nat) : Int) - o = (k : Nat) by push_cast; omega, pyIndex_ok hk, List.getElem?_append_left hk, List.getElem?_eq_getElem hk]
    · rw [if_neg (by push_cast; omega), List.getElem?_append_right (by omega)]
      have := propertiesFrom_ok ls (i + 1) (o + l.length) (k - l.length) (fun k g hg => by
        have := h (k + 1) g (by simpa using hg)
        rwa [show i + 1 + k = i + (k + 1) by omega])
      rw [show o + l.length + (k - l.length) = o + k by omega] at this
      rw [← this]
      push_cast
      rfl

/-- C79. `GetParticleProperties` of the catalogue reader, for the k-th subhalo of a snapshot saved with `SaveSubParticleProperties`, gives the properties of its bound particles,
one for each particle that `LoadParticles` gives for it, in the same order; beyond the last subhalo it fails. -/
theorem C79_reader [LinearOrder K] [MassSum K] {P : Nat} (hP : 0 < P) {snapId : Int} {root : SubRoot K D} {opts : Int → OptDisk D E} {rd : Reader} {isnap i : Int}
    {st : Fin P → List (Sub K D × List E)} (hst : ∀ r, ∀ s ∈ st r, s.1.nbound ≤ s.1.particles.length) {ens : Bool}
    (hen : ens = true → ∀ r, ∀ s ∈ st r, s.1.nbound ≤ s.2.length) {ops : List (WriteOp P)} (hops : ∀ r, .sub r ∈ ops ∧ .src r ∈ ops) {oldDisk : Disk K D} {old : OptDisk D E}
    (hd : saveOps snapId (fun r => (st r).map Prod.fst) ops oldDisk = .ok (root.multi i)) (ho : saveOptional true ens st ops old = .ok (opts i)) (hn : rd.nfiles = P)
    (hi : i = if isnap < 0 then rd.maxSnap + 1 + isnap else isnap) (k : Nat) :
    match (everyone (fun r => (st r).map Prod.fst))[k]? with
    | some s => getParticleProperties root opts rd k isnap = .ok ((s.particles.take s.nbound).map Particle.data) ∧
        shownParticlesOf root rd false isnap k = .ok ((s.particles.take s.nbound).map Particle.id)
    | none => getParticleProperties root opts rd k isnap = .abort := by
  obtain ⟨opt', h1, h2, _⟩ := saveOptional_ok true ens st hst hen ops old
  have hh : Holds snapId (fun r => (st r).map Prod.fst) (root.multi i) := by
    obtain ⟨disk', g1, g2, g3, _⟩ := saveOps_ok snapId (fun r => (st r).map Prod.fst) (by
      intro r s hs
      obtain ⟨x, hx, rfl⟩ := List.mem_map.1 hs
      exact hst r x hx) ops oldDisk
    have : disk' = root.multi i := Outcome.ok.inj (g1.symm.trans hd)
    rw [← this]
    exact ⟨fun r => g2 r (hops r).1, fun r => g3 r (hops r).2⟩
  have heq : opt' = opts i := Outcome.ok.inj (h1.symm.trans ho)
  have hf := filesAt_of_holds hh hP hn hi
  have hmax : max rd.nfiles 1 = P := by omega
  have hopen : ∀ r : Fin P, openFile root rd isnap r.val = .ok (fileOf snapId (fun r => (st r).map Prod.fst) r) := by
    intro r
    refine hf.2 r.val _ ?_
    rw [List.getElem?_ofFn, dif_pos r.isLt]
  have hflat : (List.ofFn (fun r => (st r).map (fun s => (s.1.particles.take s.1.nbound).map Particle.data))).flatten =
      (everyone (fun r => (st r).map Prod.fst)).map (fun s => (s.particles.take s.nbound).map Particle.data) := by
    rw [← flatten_everyone]
    congr 2
    funext r
    rw [List.map_map]
    rfl
  have hall : getParticleProperties root opts rd k isnap =
      (match ((everyone (fun r => (st r).map Prod.fst)).map (fun s => (s.particles.take s.nbound).map Particle.data))[k]? with | some l => .ok l | none => .abort) := by
    rw [getParticleProperties, ← hi, hmax, ← hflat]
    have := propertiesFrom_ok (root := root) (opts := opts i) (rd := rd) (isnap := isnap)
      (List.ofFn (fun r => (st r).map (fun s => (s.1.particles.take s.1.nbound).map Particle.data))) 0 0 k (by
        intro j l hl
        rw [List.getElem?_ofFn] at hl
        split at hl
        · rename_i hj
          cases hl
          refine ⟨_, _, by rw [Nat.zero_add]; exact hopen ⟨j, hj⟩, by simp [fileOf], by rw [Nat.zero_add, ← heq]; exact h2 ⟨j, hj⟩ (hops _).1, rfl⟩
        · cases hl)
    rw [List.length_ofFn, Nat.zero_add] at this
    exact this
  rw [hall, List.getElem?_map]
  have hshow := (shows_of_holds hh hP hn hi).boundOf k
  cases hk : (everyone (fun r => (st r).map Prod.fst))[k]? with
  | none => rfl
  | some s =>
    rw [hk] at hshow
    refine ⟨rfl, hshow.trans ?_⟩
    simp only
    rw [List.map_take]

/-! Example: two processes, two subhaloes; properties and energies written; the second subhalo read. -/

def exOpt : Fin 2 → List (Sub Nat Nat × List Int)
  | 0 => [(exCat 0 2 [10, 11] [], [-5, -3])]
  | 1 => [(exCat 1 2 [20, 21, 22] [], [-7, -2, 4])]

example : (∀ r, ∀ s ∈ exOpt r, s.1.nbound ≤ s.1.particles.length) ∧ (∀ r, ∀ s ∈ exOpt r, s.1.nbound ≤ s.2.length) := by decide +kernel
example : ∃ disk opt, saveOps 0 (fun r => (exOpt r).map Prod.fst) [.sub 1, .src 1, .sub 0, .src 0] emptyDisk = .ok disk ∧
    saveOptional true true exOpt [.sub 1, .src 1, .sub 0, .src 0] (fun _ => none) = .ok opt ∧
    readStoredEnergies opt 1 1 = .ok [[-7, -2]] ∧
    getParticleProperties (exRoot disk 2) (fun _ => opt) ⟨0, 2⟩ 1 0 = .ok (((exCat 1 2 [20, 21, 22] []).particles.take 2).map Particle.data) := by
  obtain ⟨disk, opt, h1, h2, h3⟩ := C79_written 0 true true exOpt (by decide +kernel) (fun _ => by decide +kernel) [.sub 1, .src 1, .sub 0, .src 0] emptyDisk (fun _ => none)
  refine ⟨disk, opt, h1, h2, ?_, ?_⟩
  · have h : (saveOptional true true exOpt [.sub 1, .src 1, .sub 0, .src 0] (fun _ => none) >>= fun o => readStoredEnergies o 1 1) = .ok [[-7, -2]] := by decide +kernel
    rw [h2] at h
    exact h
  · have := C79_reader (by decide) (root := exRoot disk 2) (opts := fun _ => opt) (rd := ⟨0, 2⟩) (isnap := 0) (i := 0) (st := exOpt) (by decide +kernel)
      (fun _ => by decide +kernel) (by decide) h1 h2 rfl rfl 1
    exact this.1

end HBT.Props
