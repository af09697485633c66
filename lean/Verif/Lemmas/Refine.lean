import Mathlib.Algebra.Order.Group.Multiset
import Mathlib.Tactic.Abel
import Verif.Model.Refine
import Verif.Lemmas.Unbind
import Verif.Lemmas.Layout
import Verif.Spec.Mask
/-!
# Helper lemmas for `RefineParticles`
-/
namespace HBT
open HBT.Model HBT.Spec HBT.Spec.Forest
variable {K D E : Type}

/-- The particles of subhalo `i`, and the bound ones. -/
def srcAt (subs : List (Sub K D)) (i : Nat) : List (Particle D) := match subs[i]? with
  | some s => s.particles
  | none => []
@[inherit_doc srcAt] def boundAt (subs : List (Sub K D)) (i : Nat) : List (Particle D) := match subs[i]? with
  | some s => s.particles.take s.nbound
  | none => []

/-- What unbinding within the hierarchy does to a subhalo `u` that gets the particles `e` from its nested
subhaloes. `neg` says that all energies are negative. -/
structure Refined [MassSum K] (neg : Prop) (minNum : Nat) (mass : D → K) (snap : Int) (u u' : Sub K D) (e : List (Particle D)) : Prop where
  same : SameTrack u u'
  perm : u'.particles.Perm (u.particles ++ e)
  /-- an orphan unbinds its own particles only -/
  le : u'.nbound ≤ (if u.nbound ≤ 1 then u.particles else u.particles ++ e).length
  outcome : (minNum ≤ u'.nbound ∧ u'.snapDeath = nullSnap ∧ u'.sinkTrackId = nullTrack ∧
      u'.snapSink = (if u.sinkTrackId ≠ nullTrack then nullSnap else u.snapSink)) ∨
    (u'.nbound = min 1 (if u.nbound ≤ 1 then u.particles else u.particles ++ e).length ∧
      u'.snapDeath = (if u.snapDeath = nullSnap then snap else u.snapDeath) ∧
      u'.sinkTrackId = u.sinkTrackId ∧ u'.snapSink = u.snapSink ∧
      (u.particles ≠ [] → u'.particles.head?.map Particle.id = u.particles.head?.map Particle.id))
  orphan : u.nbound ≤ 1 → ∃ v, v.Perm u.particles ∧ u'.particles = v ++ e
  mass_ : (1 < u.nbound ∨ u.particles.length ≤ 1) → BoundMass mass u'
  whole : neg → u'.nbound ≤ 1 ∨ u'.nbound = (if u.nbound ≤ 1 then u.particles else u.particles ++ e).length

/-- What `RecursiveUnbind` does to one subhalo `u` that gets the particles `extra` from its nested
subhaloes. -/
def NodeRefined [LT E] [DecidableLT E] [Zero E] [MassSum K] (cfg : UnbindConfig) (env : UnbindEnv K D E) (snap : Int)
    (u u' : Sub K D) (extra : List (Particle D)) : Prop :=
  if u.nbound ≤ 1 then ∃ v, unbindFull cfg env snap u = .ok v ∧ u' = v.withParticles (u.particles ++ extra)
  else unbindFull cfg env snap (u.withParticles (u.particles ++ extra)) = .ok u'

/-- The assumptions on configuration and environment. -/
structure RefineOk [LE E] (cfg : UnbindConfig) (env : Nat → UnbindEnv K D E) : Prop where
  env_ : ∀ i, EnvOk (env i)
  prec : Stops cfg.fl cfg.prec
  min : 2 ≤ cfg.minNum

theorem unbindFull_spec [LinearOrder E] [Zero E] [MassSum K] {cfg : UnbindConfig} {env : Nat → UnbindEnv K D E}
    (h : RefineOk cfg env) (i : Nat) (snap : Int) (s : Sub K D) :
    ∃ s', unbindFull cfg (env i) snap s = .ok s' ∧ SameTrack s s' ∧ s'.particles.Perm s.particles ∧
      BoundMass (env i).mass s' ∧ s'.nbound ≤ s'.particles.length ∧
      ((cfg.minNum ≤ s'.nbound ∧ s'.snapDeath = nullSnap ∧ s'.sinkTrackId = nullTrack ∧
          s'.snapSink = (if s.sinkTrackId ≠ nullTrack then nullSnap else s.snapSink)) ∨
        Orphaned cfg.minNum (env i).energy snap s s') ∧
      ((∀ k j, (env i).energy k j < 0) → s'.nbound ≤ 1 ∨ s'.nbound = s'.particles.length) := by
  obtain ⟨s', e, h1, h2, h3, h4⟩ := unbind_spec (snap := snap) (h.env_ i) h.prec h.min s (Nat.lt_succ_self _)
  refine ⟨s', e, h1, h2, h3, ?_, ?_, ?_⟩
  · rcases h4 with ⟨last, pids, hb, _⟩ | ho
    · exact hb.le
    · rw [ho.one, h2.length_eq]
      exact Nat.min_le_right _ _
  · rcases h4 with ⟨last, pids, hb, hs, _⟩ | ho
    · exact Or.inl ⟨hb.enough, hb.alive, hb.free, hs⟩
    · exact Or.inr ho
  · intro hneg
    rcases h4 with ⟨last, pids, hb, hs, _⟩ | ho
    · right
      have hl := hb.from_.length_eq
      have hd : pids.drop s'.nbound = [] := by
        rw [List.eq_nil_iff_forall_not_mem]
        intro j hj
        obtain ⟨k, _, hk⟩ := hb.unbound j hj
        exact absurd (hneg k j) (not_lt.2 hk)
      have := congrArg List.length hd
      rw [List.length_drop, List.length_nil] at this
      have := hb.le
      omega
    · left
      rw [ho.one]
      exact Nat.min_le_left _ _

theorem NodeRefined.refined [LinearOrder E] [Zero E] [MassSum K] {cfg : UnbindConfig} {env : Nat → UnbindEnv K D E}
    (h : RefineOk cfg env) {i : Nat} {snap : Int} {u u' : Sub K D} {e : List (Particle D)}
    (hr : NodeRefined cfg (env i) snap u u' e) : Refined (∀ k j, (env i).energy k j < 0) cfg.minNum (env i).mass snap u u' e := by
  unfold NodeRefined at hr
  by_cases hn : u.nbound ≤ 1
  · rw [if_pos hn] at hr
    obtain ⟨v, e1, rfl⟩ := hr
    obtain ⟨v', e2, h1, h2, h3, h4, h5, h6⟩ := unbindFull_spec h i snap u
    rw [e1] at e2
    cases e2
    have hvl := h2.length_eq
    refine ⟨⟨h1.1, h1.2, h1.3, h1.4, h1.5, h1.6, h1.7, h1.8, h1.9⟩, List.Perm.refl _, ?_, ?_, fun _ => ⟨_, List.Perm.refl _, rfl⟩, ?_,
      fun hneg => (h6 hneg).imp id (fun h => by rw [if_pos hn]; show v.nbound = _; omega)⟩
    · rw [if_pos hn]
      show v.nbound ≤ _
      omega
    · rw [if_pos hn]
      refine h5.imp id (fun ho => ⟨ho.one, ho.dead, ho.sink.1, ho.sink.2, ?_⟩)
      intro hne
      cases hp : u.particles with
      | nil => exact absurd hp hne
      | cons a l => simp
    · rintro (hc | hc)
      · omega
      · have hpe : v.particles = u.particles := by
          match hu : u.particles with
          | [] =>
            rw [hu] at h2
            exact h2.eq_nil
          | [a] =>
            rw [hu] at h2
            exact List.perm_singleton.1 h2
          | a :: b :: l => rw [hu] at hc; simp at hc
        unfold BoundMass at h3 ⊢
        show IsSum (((u.particles ++ e).take v.nbound).map _) v.mbound
        rw [hpe] at h3
        rwa [List.take_append_of_le_length (by omega)]
  · rw [if_neg hn] at hr
    obtain ⟨v', e2, h1, h2, h3, h4, h5, h6⟩ := unbindFull_spec h i snap (u.withParticles (u.particles ++ e))
    rw [hr] at e2
    cases e2
    refine ⟨⟨h1.1, h1.2, h1.3, h1.4, h1.5, h1.6, h1.7, h1.8, h1.9⟩, h2, ?_, ?_, fun hc => absurd hc hn, fun _ => h3,
      fun hneg => (h6 hneg).imp id (fun h => by rw [if_neg hn, h, h2.length_eq]; rfl)⟩
    · rw [if_neg hn]
      have := h2.length_eq
      simp only [Sub.withParticles_particles] at this
      omega
    · rw [if_neg hn]
      refine h5.imp id (fun ho => ⟨ho.one, ho.dead, ho.sink.1, ho.sink.2, ?_⟩)
      intro hne
      have := ho.first
      rw [this]
      cases hp : u.particles with
      | nil => exact absurd hp hne
      | cons a l => simp [hp]

theorem unbound_refined [LinearOrder E] [Zero E] [MassSum K] {cfg : UnbindConfig} {env : Nat → UnbindEnv K D E}
    (h : RefineOk cfg env) (i : Nat) (snap : Int) (u : Sub K D) :
    ∃ u', unbindFull cfg (env i) snap u = .ok u' ∧ Refined (∀ k j, (env i).energy k j < 0) cfg.minNum (env i).mass snap u u' [] := by
  obtain ⟨v', e2, h1, h2, h3, h4, h5, h6⟩ := unbindFull_spec h i snap u
  have hvl := h2.length_eq
  refine ⟨v', e2, h1, by simpa using h2, ?_, ?_, fun _ => ⟨_, h2, by simp⟩, fun _ => h3,
    fun hneg => (h6 hneg).imp id (fun h => by simp only [List.append_nil, ite_self]; omega)⟩
  · simp only [List.append_nil, ite_self]
    omega
  · simp only [List.append_nil, ite_self]
    exact h5.imp id (fun ho => ⟨ho.one, ho.dead, ho.sink.1, ho.sink.2, fun _ => ho.first⟩)

/-- The nest plays no role. -/
theorem Refined.renest [MassSum K] {neg : Prop} {minNum : Nat} {mass : D → K} {snap : Int} {u u' : Sub K D} {e : List (Particle D)}
    {l : List Int} (h : Refined neg minNum mass snap (u.withNested l) u' e) :
    Refined neg minNum mass snap u (u'.withNested u.nested) e :=
  ⟨⟨h.same.1, h.same.2, h.same.3, h.same.4, h.same.5, h.same.6, h.same.7, h.same.8, rfl⟩, h.perm, h.le, h.outcome,
    h.orphan, h.mass_, h.whole⟩

theorem nodeRefined_exists [LinearOrder E] [Zero E] [MassSum K] {cfg : UnbindConfig} {env : Nat → UnbindEnv K D E}
    (h : RefineOk cfg env) (i : Nat) (snap : Int) (u : Sub K D) (extra : List (Particle D)) :
    ∃ u', NodeRefined cfg (env i) snap u u' extra ∧ SameTrack u u' ∧ u'.particles.Perm (u.particles ++ extra) ∧
      u'.nbound ≤ u'.particles.length := by
  unfold NodeRefined
  by_cases hn : u.nbound ≤ 1
  · obtain ⟨v, e, h1, h2, h3, h4, _, _⟩ := unbindFull_spec h i snap u
    refine ⟨v.withParticles (u.particles ++ extra), by rw [if_pos hn]; exact ⟨v, e, rfl⟩, ?_, List.Perm.refl _, ?_⟩
    · exact ⟨h1.1, h1.2, h1.3, h1.4, h1.5, h1.6, h1.7, h1.8, h1.9⟩
    · simp only [Sub.withParticles_nbound, Sub.withParticles_particles, List.length_append]
      have := h2.length_eq
      omega
  · obtain ⟨v, e, h1, h2, h3, h4, _⟩ := unbindFull_spec h i snap (u.withParticles (u.particles ++ extra))
    refine ⟨v, by rw [if_neg hn]; exact e, ?_, h2, h4⟩
    exact ⟨h1.1, h1.2, h1.3, h1.4, h1.5, h1.6, h1.7, h1.8, h1.9⟩

theorem srcAt_congr {a b : List (Sub K D)} {i : Nat} (h : a[i]? = b[i]?) : srcAt a i = srcAt b i := by
  unfold srcAt; rw [h]
theorem boundAt_congr {a b : List (Sub K D)} {i : Nat} (h : a[i]? = b[i]?) : boundAt a i = boundAt b i := by
  unfold boundAt; rw [h]
theorem flatMap_congr' {α β : Type} {l : List α} {f g : α → List β} (h : ∀ x ∈ l, f x = g x) : l.flatMap f = l.flatMap g := by
  induction l with
  | nil => rfl
  | cons a l ih =>
    rw [List.flatMap_cons, List.flatMap_cons, h a (by simp), ih (fun x hx => h x (by simp [hx]))]

abbrev nestOf (id : Nat) (st : List (Sub K D)) : Outcome (List Int) := do let s ← Outcome.get st id; .ok s.nested

/-- The result of visiting the kids `f` of subhalo `p`. -/
def KidsDone [LT E] [DecidableLT E] [Zero E] [MassSum K] (cfg : UnbindConfig) (env : Nat → UnbindEnv K D E) (snap : Int)
    (f : Forest Nat) (p : Nat) (st st' : List (Sub K D)) (extra : List (Particle D)) : Prop :=
  st'.length = st.length ∧ (∀ x, x ∉ f.nodes → x ≠ p → st'[x]? = st[x]?) ∧
  (∃ s, st[p]? = some s ∧ st'[p]? = some (s.withParticles (s.particles ++ extra))) ∧
  (∀ x ∈ f.nodes, ∃ u u' e, st[x]? = some u ∧ st'[x]? = some u' ∧ NodeRefined cfg (env x) snap u u' e ∧ SameTrack u u' ∧
    u'.particles.Perm (u.particles ++ e) ∧ u'.nbound ≤ u'.particles.length) ∧
  (extra ++ f.nodes.flatMap (boundAt st')).Perm (f.nodes.flatMap (srcAt st))

/-- One subhalo of the recursion, given its kids. -/
theorem visit_node [LinearOrder E] [Zero E] [MassSum K] {cfg : UnbindConfig} {env : Nat → UnbindEnv K D E}
    (hok : RefineOk cfg env) {snap : Int} {fuel a : Nat} {k : Forest Nat} {st : List (Sub K D)} {u : Sub K D}
    (hu : st[a]? = some u) (hnest : u.nested = ints k.roots) (ha : a ∉ k.nodes)
    (hk : ∃ st1 extra, visitKids (recursiveUnbind cfg env snap fuel) (feedHost a) (ints k.roots) st = .ok st1 ∧
      KidsDone cfg env snap k a st st1 extra) :
    ∃ st2 u' extra, recursiveUnbind cfg env snap (fuel + 1) a st = .ok st2 ∧ st2.length = st.length ∧
      (∀ x, x ∉ k.nodes → x ≠ a → st2[x]? = st[x]?) ∧ st2[a]? = some u' ∧
      NodeRefined cfg (env a) snap u u' extra ∧ SameTrack u u' ∧ u'.particles.Perm (u.particles ++ extra) ∧
      u'.nbound ≤ u'.particles.length ∧
      (∀ x ∈ k.nodes, ∃ v v' e, st[x]? = some v ∧ st2[x]? = some v' ∧ NodeRefined cfg (env x) snap v v' e ∧ SameTrack v v' ∧
        v'.particles.Perm (v.particles ++ e) ∧ v'.nbound ≤ v'.particles.length) ∧
      (extra ++ k.nodes.flatMap (boundAt st2)).Perm (k.nodes.flatMap (srcAt st)) := by
  obtain ⟨st1, extra, e1, hl, hf, ⟨s, hs, hs1⟩, hnodes, hperm⟩ := hk
  rw [hu] at hs
  cases hs
  have hal : a < st1.length := (List.getElem?_eq_some_iff.1 hs1).1
  obtain ⟨u', hr, hst, hp, hb⟩ := nodeRefined_exists hok a snap u extra
  have hleave : unbindNode cfg env snap (if u.nbound ≤ 1 then some u.particles else none) a st1 = .ok (st1.set a u') := by
    rw [unbindNode, get_some hs1, Outcome.bind_ok]
    unfold NodeRefined at hr
    by_cases hn : u.nbound ≤ 1
    · rw [if_pos hn] at hr ⊢
      obtain ⟨v, hv, rfl⟩ := hr
      have : (u.withParticles (u.particles ++ extra)).withParticles u.particles = u := rfl
      simp only [this]
      rw [hv, Outcome.bind_ok, Outcome.set_of_lt hal]
      rfl
    · rw [if_neg hn] at hr ⊢
      simp only
      rw [hr, Outcome.bind_ok, Outcome.set_of_lt hal]
  refine ⟨st1.set a u', u', extra, ?_, by rw [List.length_set, hl], ?_, List.getElem?_set_self hal, hr, hst, hp, hb, ?_, ?_⟩
  · have hun : recursiveUnbind cfg env snap (fuel + 1) a st = (do
        let loc ← backupOrphan a st
        let ks ← nestOf a st
        let st ← visitKids (recursiveUnbind cfg env snap fuel) (feedHost a) ks st
        unbindNode cfg env snap loc a st) := rfl
    rw [hun, backupOrphan, nestOf, get_some hu, Outcome.bind_ok, Outcome.bind_ok, Outcome.bind_ok, Outcome.bind_ok,
      hnest, e1, Outcome.bind_ok, hleave]
  · intro x hx hxa
    rw [List.getElem?_set_ne (Ne.symm hxa), hf x hx hxa]
  · intro x hx
    have hxa : a ≠ x := by rintro rfl; exact ha hx
    rw [List.getElem?_set_ne hxa]
    exact hnodes x hx
  · rw [flatMap_congr' (l := k.nodes) (f := boundAt (st1.set a u')) (g := boundAt st1)]
    · exact hperm
    · intro x hx
      refine boundAt_congr (List.getElem?_set_ne ?_)
      rintro rfl
      exact ha hx

theorem recUnbind_kids [LinearOrder E] [Zero E] [MassSum K] {cfg : UnbindConfig} {env : Nat → UnbindEnv K D E}
    (hok : RefineOk cfg env) (snap : Int) : ∀ (f : Forest Nat) (fuel p : Nat) (st : List (Sub K D)),
    f.height ≤ fuel → f.Shows (idxKids st) → f.nodes.Nodup → p ∉ f.nodes → p < st.length →
    ∃ st' extra, visitKids (recursiveUnbind cfg env snap fuel) (feedHost p) (ints f.roots) st = .ok st' ∧
      KidsDone cfg env snap f p st st' extra
  | .nil, _, p, st, _, _, _, _, hp => by
    refine ⟨st, [], rfl, rfl, fun _ _ _ => rfl, ⟨st[p], List.getElem?_eq_getElem hp, ?_⟩, fun x hx => by simp at hx, by simp⟩
    rw [List.getElem?_eq_getElem hp, List.append_nil]
    rfl
  | .cons a k r, 0, _, _, hh, _, _, _, _ => by simp [Forest.height] at hh
  | .cons a k r, fuel + 1, p, st, hh, hs, hn, hp, hpl => by
    simp only [Forest.height] at hh
    obtain ⟨⟨u, hu, hnest⟩, hk, hr⟩ := hs
    rw [nodes_cons, List.nodup_cons, List.nodup_append] at hn
    obtain ⟨han, hkn, hrn, hdis⟩ := hn
    rw [List.mem_append, not_or] at han
    rw [nodes_cons, List.mem_cons, List.mem_append, not_or, not_or] at hp
    have hal : a < st.length := (List.getElem?_eq_some_iff.1 hu).1
    obtain ⟨st2, u', ex1, e2, l2, f2, hu2, hnr, hsame, hpu, hbu, hkid, hperm1⟩ := visit_node hok hu hnest han.1
      (recUnbind_kids hok snap k fuel a st (by omega) hk hkn han.1 hal)
    have hp2 : st2[p]? = st[p]? := f2 p hp.2.1 hp.1
    have hsp : st[p]? = some st[p] := List.getElem?_eq_getElem hpl
    have hpl2 : p < st2.length := by omega
    -- feeding the host
    set st3 := st2.set p (st[p].withParticles (st[p].particles ++ u'.particles.drop u'.nbound)) with hst3
    have e3 : feedHost p a st2 = .ok st3 := by
      rw [feedHost, get_some hu2, Outcome.bind_ok, if_neg (by omega), get_some (hp2.trans hsp), Outcome.bind_ok,
        Outcome.set_of_lt hpl2]
    have hne3 : ∀ x, x ≠ p → st3[x]? = st2[x]? := fun x hx => List.getElem?_set_ne (Ne.symm hx)
    have hp3 : st3[p]? = some (st[p].withParticles (st[p].particles ++ u'.particles.drop u'.nbound)) :=
      List.getElem?_set_self hpl2
    have hr3 : r.Shows (idxKids st3) := by
      refine shows_congr _ ?_ hr
      rintro x hx l ⟨v, hv, hvl⟩
      refine ⟨v, ?_, hvl⟩
      rw [hne3 x (by rintro rfl; exact hp.2.2 hx), f2 x (fun h => hdis x h x hx rfl) (by rintro rfl; exact han.2 hx), hv]
    obtain ⟨st4, ex2, e4, l4, f4, ⟨s, hs, hs4⟩, hn4, hperm2⟩ := recUnbind_kids hok snap r (fuel + 1) p st3 (by omega) hr3 hrn hp.2.2
      (by rw [hst3, List.length_set]; omega)
    rw [hp3] at hs
    cases hs
    have hl3 : st3.length = st.length := by rw [hst3, List.length_set, l2]
    refine ⟨st4, u'.particles.drop u'.nbound ++ ex2, ?_, by rw [l4, hl3], ?_, ⟨st[p], hsp, ?_⟩, ?_, ?_⟩
    · rw [roots_cons, ints_cons, visitKids, if_neg (by omega), Int.toNat_natCast, e2, Outcome.bind_ok, e3, Outcome.bind_ok, e4]
    · intro x hx hxp
      rw [nodes_cons, List.mem_cons, List.mem_append, not_or, not_or] at hx
      rw [f4 x hx.2.2 hxp, hne3 x hxp, f2 x hx.2.1 hx.1]
    · rw [hs4]
      simp [Sub.withParticles]
    · intro x hx
      rw [nodes_cons, List.mem_cons, List.mem_append] at hx
      rcases hx with rfl | hx | hx
      · refine ⟨u, u', ex1, hu, ?_, hnr, hsame, hpu, hbu⟩
        rw [f4 x han.2 (Ne.symm hp.1), hne3 x (Ne.symm hp.1), hu2]
      · have hxp : x ≠ p := by rintro rfl; exact hp.2.1 hx
        obtain ⟨v, v', e, h1, h2, h3⟩ := hkid x hx
        exact ⟨v, v', e, h1, by rw [f4 x (fun h => hdis x hx x h rfl) hxp, hne3 x hxp, h2], h3⟩
      · have hxp : x ≠ p := by rintro rfl; exact hp.2.2 hx
        obtain ⟨v, v', e, h1, h2, h3⟩ := hn4 x hx
        refine ⟨v, v', e, ?_, h2, h3⟩
        rw [← h1, hne3 x hxp, f2 x (fun h => hdis x h x hx rfl) (by rintro rfl; exact han.2 hx)]
    · -- conservation
      rw [nodes_cons, List.flatMap_cons, List.flatMap_cons, List.flatMap_append, List.flatMap_append]
      have hba : boundAt st4 a = u'.particles.take u'.nbound := by
        unfold boundAt
        rw [f4 a han.2 (Ne.symm hp.1), hne3 a (Ne.symm hp.1), hu2]
      have hsa : srcAt st a = u.particles := by
        unfold srcAt
        rw [hu]
      have hbk : k.nodes.flatMap (boundAt st4) = k.nodes.flatMap (boundAt st2) := by
        refine flatMap_congr' (fun x hx => boundAt_congr ?_)
        have hxp : x ≠ p := by rintro rfl; exact hp.2.1 hx
        rw [f4 x (fun h => hdis x hx x h rfl) hxp, hne3 x hxp]
      have hsr : r.nodes.flatMap (srcAt st3) = r.nodes.flatMap (srcAt st) := by
        refine flatMap_congr' (fun x hx => srcAt_congr ?_)
        rw [hne3 x (by rintro rfl; exact hp.2.2 hx), f2 x (fun h => hdis x h x hx rfl) (by rintro rfl; exact han.2 hx)]
      rw [hba, hsa, hbk]
      rw [hsr] at hperm2
      -- drop ++ ex2 ++ (take ++ (bk ++ br))
      have hA : (u'.particles.drop u'.nbound ++ u'.particles.take u'.nbound).Perm (u.particles ++ ex1) :=
        List.perm_append_comm.trans (by rw [List.take_append_drop]; exact hpu)
      have hB : (u'.particles.drop u'.nbound ++ ex2 ++ (u'.particles.take u'.nbound ++ (k.nodes.flatMap (boundAt st2) ++
          r.nodes.flatMap (boundAt st4)))).Perm ((u'.particles.drop u'.nbound ++ u'.particles.take u'.nbound) ++
          (k.nodes.flatMap (boundAt st2) ++ (ex2 ++ r.nodes.flatMap (boundAt st4)))) := by
        rw [← Multiset.coe_eq_coe]
        simp only [← Multiset.coe_add]
        abel
      refine hB.trans ((hA.append ((List.Perm.refl _).append hperm2)).trans ?_)
      have hC : (u.particles ++ ex1 ++ (k.nodes.flatMap (boundAt st2) ++ r.nodes.flatMap (srcAt st))).Perm
          (u.particles ++ ((ex1 ++ k.nodes.flatMap (boundAt st2)) ++ r.nodes.flatMap (srcAt st))) := by
        simp
      exact hC.trans ((List.Perm.refl _).append (hperm1.append (List.Perm.refl _)))

/-- The iteration of `RefineParticles` for one host. -/
theorem refineHost_ok [LinearOrder E] [Zero E] [MassSum K] {cfg : UnbindConfig} {env : Nat → UnbindEnv K D E}
    (hok : RefineOk cfg env) (snap : Int) {subs : List (Sub K D)} {groups heads : List (List Nat)} {h : Nat} {g hs : List Nat}
    (hg : groups[h]? = some g) (hh : heads[h]? = some hs) (hf : GroupForest subs g hs) (hn : g.Nodup)
    {fuel : Nat} (hfuel : subs.length ≤ fuel) (hlt : ∀ i ∈ g, i < subs.length) :
    ∃ out, refineHost cfg env snap fuel groups heads h subs = .ok out ∧ out.length = subs.length ∧
      (∀ x, x ∉ g → out[x]? = subs[x]?) ∧
      (∀ x ∈ g, ∃ u u' e, subs[x]? = some u ∧ out[x]? = some u' ∧ Refined (∀ k j, (env x).energy k j < 0) cfg.minNum (env x).mass snap u u' e) ∧
      (∀ c, g.head? = some c → ∃ u', out[c]? = some u' ∧
        (u'.particles.drop u'.nbound ++ g.flatMap (boundAt out)).Perm (g.flatMap (srcAt subs))) := by
  cases hf with
  | empty =>
    refine ⟨subs, ?_, rfl, fun _ _ => rfl, fun x hx => by simp at hx, fun c hc => by simp at hc⟩
    rw [refineHost, get_some hg, Outcome.bind_ok]
  | tops c t k rest hsh hnodes =>
    have hnd : (Forest.cons c k rest).nodes.Nodup := hnodes.nodup_iff.2 hn
    obtain ⟨s, h1, h2, h3, h4⟩ := glue_ok hsh hnd
    have hcl : c < subs.length := (List.getElem?_eq_some_iff.1 h1).1
    set glued := subs.set c (s.withNested (ints (k ++ rest).roots)) with hglued
    have hgl : ∀ x, x ≠ c → glued[x]? = subs[x]? := fun x hx => List.getElem?_set_ne (Ne.symm hx)
    have hgc : glued[c]? = some (s.withNested (ints (k ++ rest).roots)) := List.getElem?_set_self hcl
    have hgll : glued.length = subs.length := List.length_set
    have hnn : (c :: (k ++ rest).nodes).Perm (c :: t) := by
      rw [nodes_append]
      simpa [nodes_cons] using hnodes
    have hnd2 : (c :: (k ++ rest).nodes).Nodup := hnn.nodup_iff.2 hn
    rw [List.nodup_cons] at hnd2
    have hheight : (k ++ rest).height < fuel := by
      have h5 := height_le (k ++ rest)
      have h6 : (c :: t).length ≤ subs.length := by
        have hsub : (c :: t).Subperm (List.range subs.length) :=
          List.Nodup.subperm hn (fun i hi => List.mem_range.2 (hlt i hi))
        simpa using hsub.length_le
      have h7 := hnn.length_eq
      simp only [List.length_cons] at h6 h7
      omega
    obtain ⟨fuel', rfl⟩ : ∃ f, fuel = f + 1 := ⟨fuel - 1, by omega⟩
    obtain ⟨st2, u', ex, e2, l2, f2, hu2, hnr, hsame, hpu, hbu, hkid, hperm⟩ := visit_node hok (snap := snap) hgc rfl hnd2.1
      (recUnbind_kids hok snap (k ++ rest) fuel' c glued (by omega) h4.2.1 hnd2.2 hnd2.1 (by omega))
    have hcl2 : c < st2.length := by omega
    have hun : unglue c s.nested.length st2 = .ok (st2.set c (u'.withNested s.nested)) := by
      rw [unglue, get_some hu2, Outcome.bind_ok, Outcome.set_of_lt hcl2]
      have : u'.nested.take s.nested.length = s.nested := by
        rw [hsame.nested, Sub.withNested_nested, h2, roots_append, ints_append, List.take_left]
      rw [this]
    refine ⟨st2.set c (u'.withNested s.nested), ?_, by rw [List.length_set, l2, hgll], ?_, ?_, ?_⟩
    · rw [refineHost, get_some hg, Outcome.bind_ok]
      simp only
      rw [get_some h1, Outcome.bind_ok, get_some hh, Outcome.bind_ok, h3, Outcome.bind_ok, e2, Outcome.bind_ok, hun]
    · intro x hx
      have hxc : x ≠ c := fun h => hx (by simp [h])
      have hxk : x ∉ (k ++ rest).nodes := fun h => hx (hnn.mem_iff.1 (List.mem_cons_of_mem _ h))
      rw [List.getElem?_set_ne (Ne.symm hxc), f2 x hxk hxc, hgl x hxc]
    · intro x hx
      by_cases hxc : x = c
      · subst hxc
        exact ⟨s, u'.withNested s.nested, ex, h1, List.getElem?_set_self hcl2, (hnr.refined hok).renest⟩
      · have hxk : x ∈ (k ++ rest).nodes := by
          have := hnn.mem_iff.2 hx
          rw [List.mem_cons] at this
          exact this.resolve_left hxc
        obtain ⟨v, v', e, a1, a2, a3, _⟩ := hkid x hxk
        exact ⟨v, v', e, by rw [← hgl x hxc]; exact a1, by rw [List.getElem?_set_ne (Ne.symm hxc)]; exact a2, a3.refined hok⟩
    · intro c' hc'
      simp only [List.head?_cons, Option.some.injEq] at hc'
      subst hc'
      refine ⟨u'.withNested s.nested, List.getElem?_set_self hcl2, ?_⟩
      have hb : ∀ (f : Nat → List (Particle D)), ((c :: t).flatMap f).Perm (f c ++ (k ++ rest).nodes.flatMap f) := by
        intro f
        have := (hnn.symm.flatMap_right f)
        simpa [List.flatMap_cons] using this
      have e1 : boundAt (st2.set c (u'.withNested s.nested)) c = u'.particles.take u'.nbound := by
        unfold boundAt
        rw [List.getElem?_set_self hcl2]
        rfl
      have e3 : (k ++ rest).nodes.flatMap (boundAt (st2.set c (u'.withNested s.nested))) =
          (k ++ rest).nodes.flatMap (boundAt st2) := by
        refine flatMap_congr' (fun x hx => boundAt_congr (List.getElem?_set_ne ?_))
        rintro rfl
        exact hnd2.1 hx
      have e4 : srcAt subs c = s.particles := by
        unfold srcAt
        rw [h1]
      have e5 : (k ++ rest).nodes.flatMap (srcAt glued) = (k ++ rest).nodes.flatMap (srcAt subs) := by
        refine flatMap_congr' (fun x hx => srcAt_congr (hgl x ?_))
        rintro rfl
        exact hnd2.1 hx
      rw [e5] at hperm
      refine ((List.Perm.refl _).append (hb _)).trans (List.Perm.trans ?_ (hb _).symm)
      rw [e1, e3, e4]
      show (u'.particles.drop u'.nbound ++ (u'.particles.take u'.nbound ++ _)).Perm _
      rw [← List.append_assoc]
      have hA : (u'.particles.drop u'.nbound ++ u'.particles.take u'.nbound).Perm (s.particles ++ ex) :=
        List.perm_append_comm.trans (by rw [List.take_append_drop]; exact hpu)
      refine (hA.append (List.Perm.refl _)).trans ?_
      rw [List.append_assoc]
      exact (List.Perm.refl _).append hperm

end HBT
