import Verif.Props.Run
/-!
# Where the particles of a subhalo come from

Masking, unbinding, merging and the update of tracks move particles between the subhaloes of one process and
drop particles, but make none.
-/
set_option linter.unusedSectionVars false
namespace HBT
open HBT.Model HBT.Spec HBT.Props
variable {K D E : Type}

/-- All particles of all subhaloes satisfy `Q`. -/
def AllOf (Q : Particle D → Prop) (subs : List (Sub K D)) : Prop := ∀ s ∈ subs, ∀ p ∈ s.particles, Q p

theorem get_mem {α : Type} {l : List α} {i : Nat} {x : α} (h : Outcome.get l i = .ok x) : x ∈ l := by
  unfold Outcome.get at h
  split at h
  · rename_i a ha
    cases h
    exact List.mem_of_getElem? ha
  · cases h

theorem set_mem {α : Type} {l l' : List α} {i : Nat} {x : α} (h : Outcome.set l i x = .ok l') : ∀ y ∈ l', y = x ∨ y ∈ l := by
  unfold Outcome.set at h
  split at h
  · cases h
    intro y hy
    rcases List.mem_or_eq_of_mem_set hy with h1 | h1
    · exact Or.inr h1
    · exact Or.inl h1
  · cases h

theorem bind_eq_ok {α β : Type} {x : Outcome α} {f : α → Outcome β} {b : β} (h : (x >>= f) = .ok b) :
    ∃ a, x = .ok a ∧ f a = .ok b := by
  cases x with
  | ok a => exact ⟨a, rfl, h⟩
  | ub => cases h
  | abort => cases h
  | diverge => cases h

theorem allOf_set {Q : Particle D → Prop} {subs subs' : List (Sub K D)} {i : Nat} {s : Sub K D} (h : AllOf Q subs)
    (hs : ∀ p ∈ s.particles, Q p) (e : Outcome.set subs i s = .ok subs') : AllOf Q subs' := by
  intro t ht
  rcases set_mem e t ht with rfl | h1
  · exact hs
  · exact h t h1

/-- An invariant of the recursion over the hierarchy. -/
theorem visit_inv {σ L : Type} {nest : Nat → σ → Outcome (List Int)} {enter : Nat → σ → Outcome L}
    {after : Nat → Nat → σ → Outcome σ} {leave : L → Nat → σ → Outcome σ} (I : σ → Prop) (J : L → Prop)
    (he : ∀ id st l, I st → enter id st = .ok l → J l) (ha : ∀ id c st st', I st → after id c st = .ok st' → I st')
    (hl : ∀ l id st st', J l → I st → leave l id st = .ok st' → I st') :
    ∀ (fuel id : Nat) (st st' : σ), I st → visit nest enter after leave fuel id st = .ok st' → I st' := by
  intro fuel
  induction fuel with
  | zero => intro id st st' _ h; cases h
  | succ fuel ih =>
    intro id st st' hI h
    rw [visit] at h
    obtain ⟨loc, e1, h⟩ := bind_eq_ok h
    obtain ⟨ks, _, h⟩ := bind_eq_ok h
    obtain ⟨mid, e3, h⟩ := bind_eq_ok h
    refine hl loc id mid st' (he id st loc hI e1) ?_ h
    clear h
    induction ks generalizing st with
    | nil => cases e3; exact hI
    | cons k ks ihk =>
      rw [visitKids] at e3
      split at e3
      · cases e3
      · obtain ⟨a, ea, e3⟩ := bind_eq_ok e3
        obtain ⟨b, eb, e3⟩ := bind_eq_ok e3
        have hb : I b := ha id _ a b (ih _ st a hI ea) eb
        have hkids : ∀ (ks : List Int) (s t : σ), I s → visitKids (visit nest enter after leave fuel) (after id) ks s = .ok t → I t := by
          intro ks
          induction ks with
          | nil => intro s t hs h; cases h; exact hs
          | cons k ks ihk =>
            intro s t hs h
            rw [visitKids] at h
            split at h
            · cases h
            · obtain ⟨a, ea, h⟩ := bind_eq_ok h
              obtain ⟨b, eb, h⟩ := bind_eq_ok h
              exact ihk b t (ha id _ a b (ih _ s a hs ea) eb) h
        exact hkids ks b mid hb e3

theorem runAll_inv {σ : Type} {act : Nat → σ → Outcome σ} (I : σ → Prop) (h : ∀ i st st', I st → act i st = .ok st' → I st') :
    ∀ (order : List Nat) (st st' : σ), I st → runAll act order st = .ok st' → I st' := by
  intro order
  induction order with
  | nil => intro st st' hI e; cases e; exact hI
  | cons i is ih =>
    intro st st' hI e
    rw [runAll] at e
    obtain ⟨a, ea, e⟩ := bind_eq_ok e
    exact ih a st' (h i st a hI ea) e

theorem pickAll_mem {α : Type} {l : List α} : ∀ {is : List Nat} {xs : List α}, pickAll l is = .ok xs → ∀ x ∈ xs, x ∈ l := by
  intro is
  induction is with
  | nil => intro xs h; cases h; intro x hx; cases hx
  | cons i is ih =>
    intro xs h
    rw [pickAll] at h
    obtain ⟨a, ea, h⟩ := bind_eq_ok h
    obtain ⟨as, eas, h⟩ := bind_eq_ok h
    cases h
    intro x hx
    rcases List.mem_cons.1 hx with rfl | hx
    · exact get_mem ea
    · exact ih eas x hx

theorem restoreFirst_mem {id : Int} {ps ps' : List (Particle D)} (h : restoreFirst id ps = .ok ps') : ∀ p ∈ ps', p ∈ ps := by
  unfold restoreFirst at h
  split at h
  · cases h; exact fun p hp => hp
  · obtain ⟨a, ea, h⟩ := bind_eq_ok h
    obtain ⟨b, eb, h⟩ := bind_eq_ok h
    obtain ⟨c, ec, h⟩ := bind_eq_ok h
    intro p hp
    rcases set_mem h p hp with rfl | hp
    · exact get_mem ea
    · rcases set_mem ec p hp with rfl | hp
      · exact get_mem eb
      · exact hp

theorem die_particles (snap : Int) (s : Sub K D) : (die snap s).particles = s.particles := by
  unfold die
  split <;> rfl

/-- Unbinding reorders particles and drops none. -/
theorem unbind_particles [LinearOrder E] [Zero E] [MassSum K] {cfg : UnbindConfig} {env : UnbindEnv K D E} (he : EnvOk env)
    {fuel : Nat} {snap : Int} {s s' : Sub K D} (h : unbind cfg env fuel snap s = .ok s') : ∀ p ∈ s'.particles, p ∈ s.particles := by
  unfold unbind at h
  obtain ⟨t, ht⟩ : ∃ t, t = (if s.particles.length < cfg.minNum then die snap s else s) := ⟨_, rfl⟩
  have htp : t.particles = s.particles := by
    rw [ht]
    split
    · exact die_particles snap s
    · rfl
  simp only [← ht] at h
  rw [← htp]
  clear ht htp
  split at h
  · cases h; exact fun p hp => hp
  · cases h; exact fun p hp => hp
  · obtain ⟨ps, hps⟩ : ∃ ps, ps = (if 0 < cfg.maxSample ∧ cfg.maxSample < t.particles.length then env.shuffle t.particles else t.particles) := ⟨_, rfl⟩
    have hmem : ∀ p ∈ ps, p ∈ t.particles := by
      intro p hp
      rw [hps] at hp
      split at hp
      · exact (he.shuffle _).mem_iff.1 hp
      · exact hp
    simp only [← hps] at h
    obtain ⟨r, _, h⟩ := bind_eq_ok h
    split at h
    · obtain ⟨q, eq, h⟩ := bind_eq_ok h
      cases h
      intro p hp
      rw [show (setBound env.mass 1 (die snap (t.withParticles q))).particles = q by
        simp [setBound, die_particles]] at hp
      exact hmem p (restoreFirst_mem eq p hp)
    · obtain ⟨q, eq, h⟩ := bind_eq_ok h
      cases h
      intro p hp
      exact hmem p (pickAll_mem eq p hp)

theorem truncate_particles (cfg : UnbindConfig) (s : Sub K D) : ∀ p ∈ (truncateSource cfg s).particles, p ∈ s.particles := by
  intro p hp
  exact List.mem_of_mem_take hp

theorem glue_allOf {Q : Particle D → Prop} {c : Nat} {hs : List Nat} {subs subs' : List (Sub K D)} (h : AllOf Q subs)
    (e : glue c hs subs = .ok subs') : AllOf Q subs' := by
  unfold glue at e
  split at e
  · cases e
  · obtain ⟨s, es, e⟩ := bind_eq_ok e
    refine allOf_set h ?_ e
    exact h s (get_mem es)

theorem unglue_allOf {Q : Particle D → Prop} {c n : Nat} {subs subs' : List (Sub K D)} (h : AllOf Q subs)
    (e : unglue c n subs = .ok subs') : AllOf Q subs' := by
  unfold unglue at e
  obtain ⟨s, es, e⟩ := bind_eq_ok e
  refine allOf_set h ?_ e
  exact h s (get_mem es)

theorem feedHost_allOf {Q : Particle D → Prop} {id c : Nat} {subs subs' : List (Sub K D)} (h : AllOf Q subs)
    (e : feedHost id c subs = .ok subs') : AllOf Q subs' := by
  unfold feedHost at e
  obtain ⟨t, et, e⟩ := bind_eq_ok e
  split at e
  · cases e
  · obtain ⟨s, es, e⟩ := bind_eq_ok e
    refine allOf_set h ?_ e
    intro p hp
    rcases List.mem_append.1 hp with hp | hp
    · exact h s (get_mem es) p hp
    · exact h t (get_mem et) p (List.mem_of_mem_drop hp)

/-- Unbinding makes no particles. -/
theorem refine_allOf [LinearOrder E] [Zero E] [MassSum K] {Q : Particle D → Prop} {cfg : UnbindConfig} {env : Nat → UnbindEnv K D E}
    (he : ∀ i, EnvOk (env i)) {snap : Int} {fuel : Nat} {order lone : List Nat} {groups heads : List (List Nat)} {subs subs' : List (Sub K D)}
    (h : AllOf Q subs) (e : refineParticles cfg env snap fuel order lone groups heads subs = .ok subs') : AllOf Q subs' := by
  have hnode : ∀ (b : Option (List (Particle D))) (id : Nat) (st st' : List (Sub K D)), (∀ own, b = some own → ∀ p ∈ own, Q p) → AllOf Q st →
      unbindNode cfg env snap b id st = .ok st' → AllOf Q st' := by
    intro b id st st' hb hst e
    unfold unbindNode at e
    obtain ⟨s, es, e⟩ := bind_eq_ok e
    split at e
    · obtain ⟨u, eu, e⟩ := bind_eq_ok e
      exact allOf_set hst (fun p hp => hst s (get_mem es) p (unbind_particles (he id) eu p hp)) e
    · rename_i own
      obtain ⟨u, eu, e⟩ := bind_eq_ok e
      refine allOf_set hst ?_ e
      exact hst s (get_mem es)
  unfold refineParticles at e
  obtain ⟨m1, e1, e⟩ := bind_eq_ok e
  obtain ⟨m2, e2, e⟩ := bind_eq_ok e
  cases e
  have h1 : AllOf Q m1 := by
    refine runAll_inv (AllOf Q) ?_ order subs m1 h e1
    intro i st st' hst e
    unfold refineHost at e
    obtain ⟨g, _, e⟩ := bind_eq_ok e
    split at e
    · cases e; exact hst
    · obtain ⟨c, _, e⟩ := bind_eq_ok e
      obtain ⟨hs, _, e⟩ := bind_eq_ok e
      obtain ⟨a, ea, e⟩ := bind_eq_ok e
      obtain ⟨b, eb, e⟩ := bind_eq_ok e
      refine unglue_allOf ?_ e
      refine visit_inv (AllOf Q) (fun b : Option (List (Particle D)) => ∀ own, b = some own → ∀ p ∈ own, Q p) ?_ ?_ ?_ fuel _ a b
        (glue_allOf hst ea) eb
      · intro id st l hst e own hown
        unfold backupOrphan at e
        obtain ⟨s, es, e⟩ := bind_eq_ok e
        cases e
        split at hown
        · cases hown
          exact hst s (get_mem es)
        · cases hown
      · intro id c st st' hst e
        exact feedHost_allOf hst e
      · intro l id st st' hl hst e
        exact hnode l id st st' hl hst e
  have h2 : AllOf Q m2 := by
    refine runAll_inv (AllOf Q) ?_ lone m1 m2 h1 e2
    intro i st st' hst e
    unfold unbindAt at e
    obtain ⟨s, es, e⟩ := bind_eq_ok e
    obtain ⟨u, eu, e⟩ := bind_eq_ok e
    exact allOf_set hst (fun p hp => hst s (get_mem es) p (unbind_particles (he i) eu p hp)) e
  intro s hs
  obtain ⟨t, ht, rfl⟩ := List.mem_map.1 hs
  exact fun p hp => h2 t ht p (truncate_particles cfg t p hp)

/-- Merging makes no particles. -/
theorem merging_allOf [MassSum K] {Q : Particle D → Prop} {on : Bool} {minNum : Nat} {mass : D → K} {snap : Int}
    {contains : Nat → Nat → Prop} {sunk : Nat → Nat → Bool} {before after : List (Sub K D)} {traps merges : Nat → Option Nat}
    {middle : Nat → List (Particle D)} (h : MergingCore on minNum mass snap contains sunk before after traps merges middle)
    (hb : AllOf Q before) : AllOf Q after := by
  intro s' hs' p hp
  obtain ⟨i, hi⟩ := List.getElem?_of_mem hs'
  have hlt : i < before.length := by rw [← h.length]; exact (List.getElem?_eq_some_iff.1 hi).1
  have hs := List.getElem?_eq_getElem hlt
  have hQ := hb _ (List.mem_of_getElem? hs)
  cases hm : merges i with
  | some q =>
    rw [(h.away i q _ s' hs hi hm).2.1] at hp
    exact hQ p (List.mem_of_mem_take hp)
  | none =>
    by_cases hj : ∃ j, merges j = some i
    · obtain ⟨j, hj⟩ := hj
      obtain ⟨⟨extra, em, _, hx⟩, _, w, hw, hpre⟩ := h.grown i _ s' j hs hi hm hj
      have := hw.mem_iff.1 (hpre.subset hp)
      rw [em] at this
      rcases List.mem_append.1 this with h1 | h1
      · exact hQ p h1
      · obtain ⟨_, k, t, ht, _, hpt⟩ := hx p h1
        exact hb t (List.mem_of_getElem? ht) p hpt
    · rw [(h.still i _ s' hs hi hm (fun j hj' => hj ⟨j, hj'⟩)).2.2.1] at hp
      exact hQ p hp

/-- The particles at the end of a snapshot were there before `NestSubhalos`. -/
theorem snapshot_allOf [LinearOrder K] [MassSum K] [LinearOrder E] [Zero E] {P Q' : Nat} {par : Params K D}
    {prev : Fin Q' → List (Sub K D)} {d : Snapshot K D E P} (hc : Computed par d) (hf : SnapFacts par prev d)
    (he : ∀ r i, EnvOk (d.env r i)) {Q : Particle D → Prop} (r : Fin P) (h : AllOf Q (d.old r ++ d.new r)) : AllOf Q (d.out r) := by
  have h1 : AllOf Q (d.nested r).1 := by
    intro s hs
    obtain ⟨i, hi⟩ := List.getElem?_of_mem hs
    obtain ⟨s0, hs0, hfr⟩ := forall₂_get' (hf.framed r) i s hi
    have := h s0 (List.mem_of_getElem? hs0)
    unfold Framed at hfr
    rw [hfr]
    exact this
  have h2 : AllOf Q (d.masked r) := by
    intro s hs p hp
    obtain ⟨i, hi⟩ := List.getElem?_of_mem hs
    obtain ⟨s1, hs1, ps, rfl, hsub, _⟩ := forall₂_get' (hf.masked_ r) i s hi
    exact h1 s1 (List.mem_of_getElem? hs1) p (hsub.subset hp)
  have h3 : AllOf Q (d.refined r) := refine_allOf (he r) h2 (hc.refine_ r)
  obtain ⟨_, _, _, hm⟩ := hf.merged_ r
  have h4 : AllOf Q (d.merged r) := merging_allOf hm.toMergingCore h3
  obtain ⟨N, _, hu⟩ := hf.updated
  obtain ⟨reg, ereg, hu⟩ := hu r
  intro s hs p hp
  obtain ⟨i, hi⟩ := List.getElem?_of_mem hs
  obtain ⟨s', hs', hr⟩ := forall₂_get' hu i s hi
  rw [(updated_plain hr.1).2.1] at hp
  have hmem := List.mem_of_getElem? hs'
  rw [ereg] at hmem
  rcases List.mem_append.1 hmem with h5 | h5
  · exact h4 s' (List.mem_of_mem_take h5) p hp
  · unfold numbered at h5
    obtain ⟨j, hj, rfl⟩ := List.mem_mapIdx.1 h5
    have h6 := List.getElem_mem hj
    exact h4 _ (List.mem_of_mem_drop (List.mem_filter.1 h6).1) p hp

end HBT
