import Verif.Lemmas.ThreadsNest
import Verif.Lemmas.Update
/-!
# Helper lemmas: `UpdateTracks` under every schedule
-/
namespace HBT.Threads
open HBT HBT.Model HBT.Spec HBT.Spec.Forest HBT.Props
variable {K D E S Q α : Type} {bad : Access Loc (Loc.Val K D) → Access Loc (Loc.Val K D) → Prop}
variable {A : Access Loc (Loc.Val K D) → Prop}

/-! ## `SortMemberLists` -/

theorem does_field {w : World K D} {b : List Nat} (hA : A (.write .field b)) :
    Does A (store Loc.field b) (memOf w) () (memOf { w with field := b }) := by
  have := Does.store (A := A) (ℓ := Loc.field) (m := memOf w) (old := w.field) b rfl hA
  have e : Function.update (memOf w) .field (some b) = memOf { w with field := b } := by
    funext ℓ
    by_cases e : ℓ = .field
    · subst e; rw [Function.update_self]; rfl
    · rw [Function.update_of_ne e]
      cases ℓ with
      | field => exact absurd rfl e
      | _ => rfl
  rwa [e] at this

theorem does_group {w : World K D} {h : Nat} {b : List Nat} (hl : h < w.groups.length) (hA : A (.write (.group h) b)) :
    Does A (store (Loc.group h) b) (memOf w) () (memOf { w with groups := w.groups.set h b }) := by
  have := Does.store (A := A) (ℓ := Loc.group h) (m := memOf w) (old := w.groups[h]) b (by simp [memOf, hl]) hA
  have e : Function.update (memOf w) (.group h) (some b) = memOf { w with groups := w.groups.set h b } := by
    funext ℓ
    by_cases e : ℓ = .group h
    · subst e; rw [Function.update_self]; simp [memOf, hl]
    · rw [Function.update_of_ne e]
      cases ℓ with
      | group j =>
        have : h ≠ j := fun hj => e (by rw [hj])
        simp [memOf, List.getElem?_set_ne this]
      | _ => rfl
  rwa [e] at this

theorem masses_does {w : World K D} : ∀ (g : List Nat), (∀ i ∈ g, i < w.subs.length) → (∀ i ∈ g, A (.read (.sub i .mbound))) →
    Does A (massesP g) (memOf w) () (memOf w) := by
  intro g
  induction g with
  | nil => intro _ _; exact Does.pure _ _ _
  | cons i g ih =>
    intro h hA
    rw [massesP]
    exact Does.bind (does_rd (List.getElem?_eq_getElem (h i List.mem_cons_self)) (hA i List.mem_cons_self))
      (ih (fun j hj => h j (List.mem_cons_of_mem _ hj)) (fun j hj => hA j (List.mem_cons_of_mem _ hj)))

/-- The iterations: the field first, then the groups. -/
def sortStep (v : Nat → List Nat) (v0 : List Nat) : Nat → List Nat × List (List Nat) → Outcome (List Nat × List (List Nat))
  | 0, x => .ok (v0, x.2)
  | h + 1, x => do
    let gs ← Outcome.set x.2 h (v h)
    .ok (x.1, gs)

theorem sortStep_all {v : Nat → List Nat} {v0 : List Nat} : ∀ (is : List Nat) (x : List Nat) (l l' : List (List Nat)),
    runAll (fun i l => Outcome.set l i (v i)) is l = .ok l' → runAll (sortStep v v0) (is.map Nat.succ) (x, l) = .ok (x, l') := by
  intro is
  induction is with
  | nil => intro x l l' h; cases h; rfl
  | cons i is ih =>
    intro x l l' h
    rw [runAll] at h
    obtain ⟨l1, h1, h2⟩ := bind_eq_ok h
    rw [List.map_cons, runAll, sortStep]
    simp only [h1, Outcome.bind_ok]
    exact ih x l1 l' h2

theorem sort_completes (hbad : ∀ a b, bad a b → Races a b) {w : World K D} (sort : List Nat → List Nat)
    (hg : ∀ g ∈ w.groups, ∀ i ∈ g, i < w.subs.length) (hf : ∀ i ∈ w.field, i < w.subs.length) :
    Completes bad [sortFieldP sort :: (List.range w.groups.length).map (sortGroupP sort)] (memOf w)
      (memOf { w with groups := w.groups.map sort, field := sort w.field }) := by
  obtain ⟨l, e, h1, h2⟩ := runAll_set (fun i => sort ((w.groups[i]?).getD [])) (List.range w.groups.length) w.groups
    (fun i hi => List.mem_range.1 hi)
  have hle : l = w.groups.map sort := by
    apply List.ext_getElem?
    intro i
    by_cases hi : i < w.groups.length
    · rw [(h2 i hi).1 (List.mem_range.2 hi), List.getElem?_map, List.getElem?_eq_getElem hi]
      rfl
    · rw [List.getElem?_eq_none (by omega), List.getElem?_eq_none (by rw [List.length_map]; omega)]
  subst hle
  have hrun : runAll (sortStep (fun i => sort ((w.groups[i]?).getD [])) (sort w.field)) (List.range (w.groups.length + 1)) (w.field, w.groups)
      = .ok (sort w.field, w.groups.map sort) := by
    rw [List.range_succ_eq_map, runAll, sortStep, Outcome.bind_ok]
    exact sortStep_all _ _ _ _ e
  have hmap : sortFieldP sort :: (List.range w.groups.length).map (sortGroupP sort)
      = (List.range (w.groups.length + 1)).map (fun i => match i with | 0 => sortFieldP sort | h + 1 => (sortGroupP sort h : TProg K D Unit)) := by
    rw [List.range_succ_eq_map, List.map_cons, List.map_map]
    rfl
  rw [hmap]
  refine foot_loop (σ := List Nat × List (List Nat)) (st := (w.field, w.groups)) hbad (fun x => memOf { w with field := x.1, groups := x.2 }) _ _
    (fun _ ℓ => ∃ j f, ℓ = .sub j f)
    (fun i ℓ => match i with | 0 => ℓ = .field | h + 1 => ℓ = .group h)
    (fun i x => match i with | 0 => x.1 = w.field | h + 1 => x.2[h]? = w.groups[h]?) List.nodup_range (List.Perm.refl _) ?_ ?_ ?_ ?_ hrun
  · intro i _ j _ hne ℓ hℓ
    cases i with
    | zero =>
      simp only at hℓ
      subst hℓ
      refine ⟨(by rintro ⟨j', f, e⟩; cases e), ?_⟩
      cases j with
      | zero => exact absurd rfl hne
      | succ j => intro e; cases e
    | succ i =>
      simp only at hℓ
      subst hℓ
      refine ⟨(by rintro ⟨j', f, e⟩; cases e), ?_⟩
      cases j with
      | zero => intro e; cases e
      | succ j => intro e; cases e; exact hne rfl
  · rintro i hi ⟨x, l⟩ ⟨x', l'⟩ hp h
    cases i with
    | zero =>
      simp only at hp
      subst hp
      cases h
      rw [sortFieldP]
      refine Does.bind (Does.load (ℓ := Loc.field) (m := memOf { w with groups := l }) rfl (Or.inr rfl)) ?_
      refine Does.bind (masses_does (w := { w with groups := l }) w.field hf (fun i _ => Or.inl ⟨i, _, rfl⟩)) ?_
      exact does_field (w := { w with groups := l }) rfl
    | succ i =>
      simp only at hp
      rw [sortStep] at h
      obtain ⟨l1, h3, h4⟩ := bind_eq_ok h
      cases h4
      obtain ⟨hil, rfl⟩ := set_ok h3
      simp only at hil
      have hi' : i < w.groups.length := by have := List.mem_range.1 hi; omega
      have hgi : w.groups[i]? = some w.groups[i] := List.getElem?_eq_getElem hi'
      simp only
      rw [sortGroupP]
      have hld : Does (foot (fun ℓ => ∃ j f, ℓ = .sub j f) (fun ℓ => ℓ = .group i)) (load (Loc.group i))
          (memOf { w with field := x, groups := l }) w.groups[i] (memOf { w with field := x, groups := l }) :=
        Does.load (ℓ := Loc.group i) (by simp only [memOf]; rw [hp, hgi]) (Or.inr rfl)
      refine Does.bind hld ?_
      refine Does.bind (masses_does (w := { w with field := x, groups := l }) w.groups[i] (hg _ (List.getElem_mem hi')) (fun i _ => Or.inl ⟨i, _, rfl⟩)) ?_
      rw [hgi]
      exact does_group (w := { w with field := x, groups := l }) hil rfl
  · rintro i _ j _ hne ⟨x, l⟩ ⟨x', l'⟩ hpi hpj h
    cases i with
    | zero =>
      cases h
      cases j with
      | zero => exact absurd rfl hne
      | succ j => exact hpj
    | succ i =>
      rw [sortStep] at h
      obtain ⟨l1, h3, h4⟩ := bind_eq_ok h
      cases h4
      obtain ⟨hil, rfl⟩ := set_ok h3
      cases j with
      | zero => exact hpj
      | succ j =>
        simp only at hpj ⊢
        rw [List.getElem?_set_ne (fun e => hne (by rw [e]))]
        exact hpj
  · intro i _
    cases i <;> rfl

/-! ## `ExtendCentralNest` -/

theorem levelUpEach_sim {w : World K D} {T : Nat → Prop} (hown : ∀ i, T i → Owns A i) {fuel : Nat} : ∀ (ids : List Nat) (st st' : List (Sub K D)),
    (∀ i ∈ ids, T i) → Closed T st → levelUpEach fuel ids st = .ok st' → Sim A w (levelUpEachP fuel ids) st () st' ∧ Closed T st' := by
  intro ids
  induction ids with
  | nil => intro st st' _ hcl h; cases h; exact ⟨Sim.pure _, hcl⟩
  | cons i ids ih =>
    intro st st' hT hcl h
    rw [levelUpEach] at h
    obtain ⟨st1, h1, h2⟩ := bind_eq_ok h
    obtain ⟨s1, c1⟩ := levelUp_sim (w := w) hown fuel i (hT i List.mem_cons_self) st st1 hcl h1
    obtain ⟨s2, c2⟩ := ih st1 st' (fun j hj => hT j (List.mem_cons_of_mem _ hj)) c1 h2
    rw [levelUpEachP]
    exact ⟨Sim.bind s1 s2, c2⟩

theorem extendNests_fold {fuel : Nat} : ∀ (gs hs : List (List Nat)) (st st' : List (Sub K D)), extendNests fuel gs hs st = .ok st' →
    gs.length ≤ hs.length ∧ foldOk (fun x : List Nat × List Nat => extendOne fuel x.1 x.2) (gs.zip hs) st = .ok st' := by
  intro gs
  induction gs with
  | nil =>
    intro hs st st' h
    rw [extendNests] at h
    cases h
    exact ⟨by simp, rfl⟩
  | cons g gs ih =>
    intro hs st st' h
    cases hs with
    | nil => cases h
    | cons a hs =>
      rw [extendNests] at h
      obtain ⟨st1, h1, h2⟩ := bind_eq_ok h
      obtain ⟨h3, h4⟩ := ih _ _ _ h2
      refine ⟨by simpa using h3, ?_⟩
      rw [List.zip_cons_cons, foldOk]
      simp only [h1, Outcome.bind_ok]
      exact h4

theorem ints_toNat {l : List Nat} {T : Nat → Prop} (h : ∀ x ∈ l, T x) : ∀ k ∈ l.map (fun x : Nat => (x : Int)), 0 ≤ k → T k.toNat := by
  intro k hk _
  obtain ⟨x, hx, rfl⟩ := List.mem_map.1 hk
  simpa using h x hx

/-- One group. -/
theorem extend_sim {w : World K D} {T : Nat → Prop} (hown : ∀ i, T i → Owns A i) {fuel h : Nat} {g hs : List Nat} (hA1 : A (.read (.group h))) (hA2 : A (.read (.heads h)))
    (hg : w.groups[h]? = some g) (hh : w.heads[h]? = some hs) (hc : ∀ c ∈ g, T c) (hT : 2 ≤ g.length → ∀ x ∈ hs, T x) {st st' : List (Sub K D)} (hcl : Closed T st)
    (hrun : extendOne fuel g hs st = .ok st') : Sim A w (extendP fuel h) st () st' ∧ Closed T st' := by
  have l1 : Sim A w (load (Loc.group h)) st g st := Sim.load hg hA1
  have l2 : Sim A w (load (Loc.heads h)) st hs st := Sim.load hh hA2
  rw [extendP]
  cases g with
  | nil => cases hrun; exact ⟨Sim.bind l1 (Sim.bind l2 (Sim.pure _)), hcl⟩
  | cons c t =>
    cases t with
    | nil => cases hrun; exact ⟨Sim.bind l1 (Sim.bind l2 (Sim.pure _)), hcl⟩
    | cons d t =>
      have hTs := hT (by simp)
      have hTc := hc c List.mem_cons_self
      have hO := hown c hTc
      rw [extendOne] at hrun
      · obtain ⟨s, h1, hrun⟩ := bind_eq_ok hrun
        have hs' := get_ok h1
        by_cases hr : s.rank = 0
        · rw [if_pos hr] at hrun
          obtain ⟨_, rfl⟩ := set_ok hrun
          refine ⟨Sim.bind l1 (Sim.bind l2 ?_), ?_⟩
          · refine Sim.bind (Sim.rd hs' (hO _).1) ?_
            rw [if_pos (show Field.get .rank s = 0 from hr)]
            exact Sim.bind (Sim.rd hs' (hO _).1) (Sim.wr hs' (f := .nested) _ ((hO _).2 _))
          · refine hcl.set (fun _ k hk h0 => ?_)
            rcases List.mem_append.1 hk with hk | hk
            · exact hcl c s hTc hs' k hk h0
            · exact ints_toNat (fun x hx => hTs x (List.mem_filter.1 hx).1) k hk h0
        · rw [if_neg hr] at hrun
          obtain ⟨st1, h2, hrun2⟩ := bind_eq_ok hrun
          obtain ⟨st2, h3, hrun3⟩ := bind_eq_ok hrun2
          obtain ⟨s2, h4, hrun4⟩ := bind_eq_ok hrun3
          obtain ⟨_, rfl⟩ := set_ok h2
          obtain ⟨_, rfl⟩ := set_ok hrun4
          have c1 : Closed T (st.set c (s.withRank 0)) := hcl.set_same hs' rfl
          obtain ⟨s3, c3⟩ := levelUpEach_sim (w := w) hown hs _ _ hTs c1 h3
          have hs2 := get_ok h4
          refine ⟨Sim.bind l1 (Sim.bind l2 ?_), ?_⟩
          · refine Sim.bind (Sim.rd hs' (hO _).1) ?_
            rw [if_neg (show ¬ Field.get .rank s = 0 from hr)]
            exact Sim.bind (Sim.wr hs' (f := .rank) _ ((hO _).2 _)) (Sim.bind s3 (Sim.bind (Sim.rd hs2 (hO _).1) (Sim.wr hs2 (f := .nested) _ ((hO _).2 _))))
          · refine c3.set (fun _ k hk h0 => ?_)
            rcases List.mem_append.1 hk with hk | hk
            · exact c3 c s2 hTc hs2 k hk h0
            · exact ints_toNat hTs k hk h0
      · simp

theorem extend_completes (hbad : ∀ a b, bad a b → Races a b) {w : World K D}
    (hdis : ∀ a b, a ≠ b → ∀ x, memberOf w.groups a x → ¬ memberOf w.groups b x)
    (hcl : ∀ h, Closed (memberOf w.groups h) w.subs)
    (hin : ∀ (h : Nat) (g hs : List Nat), w.groups[h]? = some g → w.heads[h]? = some hs → 2 ≤ g.length → ∀ x ∈ hs, x ∈ g) {fuel : Nat} {out : List (Sub K D)}
    (hrun : extendNests fuel w.groups w.heads w.subs = .ok out) :
    Completes bad [(List.range w.groups.length).map (extendP fuel)] (memOf w) (memOf (w.withSubs out)) ∧ out.length = w.subs.length ∧
      ∀ h, Closed (memberOf w.groups h) out := by
  obtain ⟨hle, hrun⟩ := extendNests_fold _ _ _ _ hrun
  rw [← runAll_range, List.length_zip, Nat.min_eq_left hle] at hrun
  obtain ⟨k1, k2, k3⟩ := subs_loop (bad := bad) hbad w _ (extendP fuel) (memberOf w.groups) (fun n => Closed (memberOf w.groups n)) List.nodup_range (List.Perm.refl _)
    (fun i _ j hne x => hdis i j hne x) (by
      intro i hi st st' hp hf
      have hi' := List.mem_range.1 hi
      obtain ⟨x, h1, h2⟩ := bind_eq_ok hf
      have hx := get_ok h1
      rw [List.getElem?_zip_eq_some] at hx
      exact extend_sim (T := memberOf w.groups i) (A := ownFoot (memberOf w.groups i)) (fun i => ownFoot_owns) (own_read (by simp)) (own_read (by simp)) hx.1 hx.2
        (fun c hc => ⟨_, hx.1, hc⟩) (fun h2 y hy => ⟨_, hx.1, hin i _ _ hx.1 hx.2 h2 y hy⟩) hp h2)
    (fun j st st' hp he => hp.local he) (fun i _ => hcl i) hrun
  exact ⟨k1, k2, fun h => k3 h (hcl h)⟩

/-! ## `AssignRanks` -/

theorem setRanks_zero : ∀ (ids : List Nat) (i : Nat) (st : List (Sub K D)), setRanks (fun _ => 0) ids i st = rankZero ids st := by
  intro ids
  induction ids with
  | nil => intro i st; rfl
  | cons id ids ih =>
    intro i st
    rw [setRanks, rankZero]
    cases Outcome.get st id with
    | ok s =>
      simp only [Outcome.bind_ok]
      cases Outcome.set st id (s.withRank 0) with
      | ok st1 => exact ih _ st1
      | ub => rfl
      | abort => rfl
      | diverge => rfl
    | ub => rfl
    | abort => rfl
    | diverge => rfl

theorem ranks_sim {w : World K D} : ∀ (ids : List Nat) (i : Nat) (st st' : List (Sub K D)), (∀ id ∈ ids, Owns A id) →
    setRanks (fun i => (i : Int)) ids i st = .ok st' → Sim A w (ranksP ids i) st () st' ∧ RanksOnly st st' := by
  intro ids
  induction ids with
  | nil => intro i st st' _ h; cases h; exact ⟨Sim.pure _, rfl⟩
  | cons id ids ih =>
    intro i st st' hown h
    rw [setRanks] at h
    obtain ⟨s, h1, h⟩ := bind_eq_ok h
    obtain ⟨st1, h2, h⟩ := bind_eq_ok h
    obtain ⟨_, rfl⟩ := set_ok h2
    obtain ⟨s2, r2⟩ := ih _ _ _ (fun j hj => hown j (List.mem_cons_of_mem _ hj)) h
    rw [ranksP]
    exact ⟨Sim.bind (Sim.wr (get_ok h1) (f := .rank) _ ((hown id List.mem_cons_self _).2 _)) s2, r2.trans (map_set_same Sub.nested (get_ok h1) rfl)⟩

theorem rankGroups_completes (hbad : ∀ a b, bad a b → Races a b) {w : World K D}
    (hdis : ∀ a b, a ≠ b → ∀ x, memberOf w.groups a x → ¬ memberOf w.groups b x) {out : List (Sub K D)}
    (hrun : foldOk (fun g => setRanks (fun i => (i : Int)) g 0) w.groups w.subs = .ok out) :
    Completes bad [(List.range w.groups.length).map rankGroupP] (memOf w) (memOf (w.withSubs out)) ∧ RanksOnly w.subs out := by
  refine ⟨?_, fold_nested (fun g st st' h => (ranks_sim (A := fun _ => True) (w := w) g 0 st st' (fun _ _ _ => ⟨trivial, fun _ => trivial⟩) h).2) _ _ _ hrun⟩
  rw [← runAll_range] at hrun
  refine (subs_loop (bad := bad) hbad w _ rankGroupP (memberOf w.groups) (fun _ _ => True) List.nodup_range (List.Perm.refl _)
    (fun i _ j hne x => hdis i j hne x) ?_ (fun _ _ _ _ _ => trivial) (fun _ _ => trivial) hrun).1
  intro i hi st st' _ hf
  obtain ⟨g, h1, h2⟩ := bind_eq_ok hf
  have hg := get_ok h1
  have hld : Sim (ownFoot (memberOf w.groups i)) w (load (Loc.group i)) st g st := Sim.load hg (own_read (by simp))
  rw [rankGroupP]
  exact ⟨Sim.bind hld (ranks_sim g 0 st st' (fun j hj => ownFoot_owns ⟨g, hg, hj⟩) h2).1, trivial⟩

/-! ## `FillDepth` -/

theorem depthKids_sim {w : World K D} {T : Nat → Prop} {rec : Nat → List (Sub K D) → Outcome (List (Sub K D))} {recP : Nat → TProg K D Unit}
    (hrec : ∀ i, T i → ∀ st st', Closed T st → rec i st = .ok st' → Sim A w (recP i) st () st' ∧ Closed T st') :
    ∀ (ks : List Int) (st st' : List (Sub K D)), (∀ k ∈ ks, 0 ≤ k → T k.toNat) → Closed T st → fillDepthKids rec ks st = .ok st' →
      Sim A w (depthKidsP recP ks) st () st' ∧ Closed T st' := by
  intro ks
  induction ks with
  | nil => intro st st' _ hcl h; cases h; exact ⟨Sim.pure _, hcl⟩
  | cons k ks ih =>
    intro st st' hks hcl h
    rw [fillDepthKids] at h
    obtain ⟨t, h1, h⟩ := bind_eq_ok h
    obtain ⟨st1, h2, h⟩ := bind_eq_ok h
    obtain ⟨hk0, _⟩ := getI_ok h1
    obtain ⟨s1, c1⟩ := hrec _ (hks k List.mem_cons_self hk0) _ _ hcl h2
    obtain ⟨s2, c2⟩ := ih _ _ (fun k' hk' => hks k' (List.mem_cons_of_mem _ hk')) c1 h
    rw [depthKidsP, if_neg (by omega)]
    exact ⟨Sim.bind s1 s2, c2⟩

theorem depth_sim {w : World K D} {T : Nat → Prop} (hown : ∀ i, T i → Owns A i) : ∀ (fuel : Nat) (depth : Int) (id : Nat), T id → ∀ st st', Closed T st →
    fillDepthRec fuel depth id st = .ok st' → Sim A w (depthP fuel depth id) st () st' ∧ Closed T st' := by
  intro fuel
  induction fuel with
  | zero => intro depth id _ st st' _ h; cases h
  | succ fuel ih =>
    intro depth id hid st st' hcl h
    rw [fillDepthRec] at h
    obtain ⟨s, h1, h⟩ := bind_eq_ok h
    obtain ⟨st1, h2, h⟩ := bind_eq_ok h
    obtain ⟨hi, rfl⟩ := set_ok h2
    have hs := get_ok h1
    have hO := hown _ hid
    have c1 : Closed T (st.set id (s.withDepth depth)) := hcl.set_same hs rfl
    obtain ⟨s2, c2⟩ := depthKids_sim (w := w) (fun i hi a b => ih (depth + 1) i hi a b) _ _ _ (hcl id s hid hs) c1 h
    rw [depthP]
    have hr : Sim A w (rd id .nested) (st.set id (s.withDepth depth)) s.nested (st.set id (s.withDepth depth)) :=
      Sim.rd (s := s.withDepth depth) (by simp [hi]) (hO .nested).1
    exact ⟨Sim.bind (Sim.wr hs (f := .depth) _ ((hO _).2 _)) (Sim.bind hr s2), c2⟩

/-- One group. -/
def depthOne (fuel : Nat) (g : List Nat) (st : List (Sub K D)) : Outcome (List (Sub K D)) :=
  match g with
  | [] => .ok st
  | c :: _ => fillDepthRec fuel 0 c st

theorem fillDepth_fold {fuel : Nat} : ∀ (gs : List (List Nat)) (st : List (Sub K D)), fillDepth fuel gs st = foldOk (depthOne fuel) gs st := by
  intro gs
  induction gs with
  | nil => intro st; rfl
  | cons g gs ih =>
    intro st
    cases g with
    | nil =>
      rw [foldOk, depthOne, Outcome.bind_ok, ← ih]
      rfl
    | cons c t =>
      have : centralsOf ((c :: t) :: gs) = c :: centralsOf gs := rfl
      rw [fillDepth, this, fillDepthEach, foldOk, depthOne]
      cases fillDepthRec fuel 0 c st with
      | ok st1 => rw [Outcome.bind_ok, Outcome.bind_ok, ← ih]; rfl
      | ub => rfl
      | abort => rfl
      | diverge => rfl

theorem depth_completes (hbad : ∀ a b, bad a b → Races a b) {w : World K D}
    (hdis : ∀ a b, a ≠ b → ∀ x, memberOf w.groups a x → ¬ memberOf w.groups b x)
    (hcl : ∀ h, Closed (memberOf w.groups h) w.subs) {fuel : Nat} {out : List (Sub K D)}
    (hrun : fillDepth fuel w.groups w.subs = .ok out) :
    Completes bad [(List.range w.groups.length).map (depthHostP fuel)] (memOf w) (memOf (w.withSubs out)) ∧ out.length = w.subs.length := by
  rw [fillDepth_fold, ← runAll_range] at hrun
  obtain ⟨k1, k2, _⟩ := subs_loop (bad := bad) hbad w _ (depthHostP fuel) (memberOf w.groups) (fun n => Closed (memberOf w.groups n)) List.nodup_range (List.Perm.refl _)
    (fun i _ j hne x => hdis i j hne x) (by
      intro i hi st st' hp hf
      obtain ⟨g, h1, h2⟩ := bind_eq_ok hf
      have hg := get_ok h1
      have hld : Sim (ownFoot (memberOf w.groups i)) w (load (Loc.group i)) st g st := Sim.load hg (own_read (by simp))
      rw [depthHostP]
      cases g with
      | nil => cases h2; exact ⟨Sim.bind hld (Sim.pure _), hp⟩
      | cons c t =>
        obtain ⟨s1, c1⟩ := depth_sim (w := w) (T := memberOf w.groups i) (A := ownFoot (memberOf w.groups i)) (fun i => ownFoot_owns) fuel 0 c
          ⟨_, hg, List.mem_cons_self⟩ st st' hp h2
        exact ⟨Sim.bind hld s1, c1⟩)
    (fun j st st' hp he => hp.local he) (fun i _ => hcl i) hrun
  exact ⟨k1, k2⟩

/-! ## The records -/

theorem refreshAll_each [LE K] [DecidableLE K] {snap : Int} {haloIds : List Int} : ∀ (l l' : List (Sub K D)), refreshAll snap haloIds l = .ok l' →
    List.Forall₂ (fun s s' => restoreHost haloIds (updateTrack snap s) = .ok s') l l' := by
  intro l
  induction l with
  | nil => intro l' h; cases h; exact .nil
  | cons s l ih =>
    intro l' h
    rw [refreshAll] at h
    obtain ⟨s', h1, h⟩ := bind_eq_ok h
    obtain ⟨l1, h2, h⟩ := bind_eq_ok h
    cases h
    exact .cons h1 (ih _ h2)

theorem refresh_completes [LE K] [DecidableLE K] (hbad : ∀ a b, bad a b → Races a b) {w : World K D} {snap : Int} {haloIds : List Int} {out : List (Sub K D)}
    (hrun : refreshAll snap haloIds w.subs = .ok out) :
    Completes bad [(List.range w.subs.length).map (refreshP snap haloIds)] (memOf w) (memOf (w.withSubs out)) ∧ out.length = w.subs.length :=
  each_loop (bad := bad) hbad w _ (refreshP snap haloIds) List.nodup_range (List.Perm.refl _)
    (fun i _ st st' h => applyAt_sim (ownFoot_owns (T := (· = i)) rfl) h) (applyAt_range (refreshAll_each _ _ hrun))

/-! ## `GlobalizeTrackReferences` -/

theorem globalizeFrom_each {snap : Int} {all : List (Sub K D)} : ∀ (l l' : List (Sub K D)), globalizeFrom snap all l = .ok l' →
    List.Forall₂ (fun s s' => globalizeOne snap all s = .ok s') l l' := by
  intro l
  induction l with
  | nil => intro l' h; cases h; exact .nil
  | cons s l ih =>
    intro l' h
    rw [globalizeFrom] at h
    obtain ⟨s', h1, h⟩ := bind_eq_ok h
    obtain ⟨l1, h2, h⟩ := bind_eq_ok h
    cases h
    exact .cons h1 (ih _ h2)

theorem globalIds_sim {w : World K D} {all st : List (Sub K D)} (he : st.map Sub.trackId = all.map Sub.trackId) (hA : ∀ j, A (.read (.sub j .trackId))) :
    ∀ (ks ts : List Int), globalIds all ks = .ok ts → Sim A w (globalIdsP ks) st ts st := by
  intro ks
  induction ks with
  | nil => intro ts h; cases h; exact Sim.pure _
  | cons k ks ih =>
    intro ts h
    rw [globalIds] at h
    obtain ⟨s, h1, h⟩ := bind_eq_ok h
    obtain ⟨ts', h2, h⟩ := bind_eq_ok h
    cases h
    obtain ⟨hk0, hs⟩ := getI_ok h1
    obtain ⟨u, hu, hut⟩ : ∃ u, st[k.toNat]? = some u ∧ u.trackId = s.trackId := by
      have : (st.map Sub.trackId)[k.toNat]? = some s.trackId := by rw [he, List.getElem?_map, hs]; rfl
      rw [List.getElem?_map] at this
      exact Option.map_eq_some_iff.1 this
    rw [globalIdsP, if_neg (by omega)]
    have hr : Sim A w (rd k.toNat .trackId) st s.trackId st := by
      have : Sim A w (rd k.toNat .trackId) st u.trackId st := Sim.rd hu (hA _)
      rwa [hut] at this
    exact Sim.bind hr (Sim.bind (ih _ h2) (Sim.pure _))

theorem globalize_completes (hbad : ∀ a b, bad a b → Races a b) {w : World K D} {snap : Int} {out : List (Sub K D)} (hrun : globalize snap w.subs = .ok out) :
    Completes bad [(List.range w.subs.length).map (globalizeP snap)] (memOf w) (memOf (w.withSubs out)) := by
  have hrun := applyAt_range (globalizeFrom_each _ _ hrun)
  refine foot_loop (σ := List (Sub K D)) (st := w.subs) hbad (fun x => memOf (w.withSubs x)) _ (globalizeP snap)
    (fun i ℓ => (∃ j, ℓ = .sub j .trackId) ∨ ℓ = .sub i .snapSink) (fun i ℓ => ℓ = .sub i .sinkTrackId ∨ ℓ = .sub i .nested)
    (fun i x => x.map Sub.trackId = w.subs.map Sub.trackId) List.nodup_range (List.Perm.refl _) ?_ ?_ ?_ (fun _ _ => rfl) hrun
  · rintro i _ j _ hne ℓ (rfl | rfl)
    · refine ⟨(by rintro (⟨j', e⟩ | e) <;> cases e), ?_⟩
      rintro (e | e) <;> cases e
      exact hne rfl
    · refine ⟨(by rintro (⟨j', e⟩ | e) <;> cases e), ?_⟩
      rintro (e | e) <;> cases e
      exact hne rfl
  · intro i hi st st' hp h
    rw [applyAt] at h
    obtain ⟨s, h1, h⟩ := bind_eq_ok h
    obtain ⟨s', h2, h⟩ := bind_eq_ok h
    obtain ⟨hil, rfl⟩ := set_ok h
    have hs := get_ok h1
    rw [globalizeOne] at h2
    obtain ⟨ts, h3, h2⟩ := bind_eq_ok h2
    obtain ⟨A', hA'⟩ : ∃ A' : Access Loc (Loc.Val K D) → Prop, A' = foot (fun ℓ => (∃ j, ℓ = .sub j .trackId) ∨ ℓ = .sub i .snapSink)
      (fun ℓ => ℓ = .sub i .sinkTrackId ∨ ℓ = .sub i .nested) := ⟨_, rfl⟩
    have r1 : ∀ j, A' (.read (.sub j .trackId)) := fun j => by rw [hA']; exact Or.inl (Or.inl ⟨j, rfl⟩)
    have r2 : A' (.read (.sub i .snapSink)) := by rw [hA']; exact Or.inl (Or.inr rfl)
    have r3 : A' (.read (.sub i .sinkTrackId)) := by rw [hA']; exact Or.inr (Or.inl rfl)
    have r4 : A' (.read (.sub i .nested)) := by rw [hA']; exact Or.inr (Or.inr rfl)
    have w1 : ∀ v, A' (.write (.sub i .sinkTrackId) v) := fun v => by rw [hA']; exact Or.inl rfl
    have w2 : ∀ v, A' (.write (.sub i .nested) v) := fun v => by rw [hA']; exact Or.inr rfl
    rw [← hA']
    show Sim A' w (globalizeP snap i) st () (st.set i s')
    rw [globalizeP]
    refine Sim.bind (Sim.rd hs r2) ?_
    by_cases hsn : s.snapSink = snap
    · rw [if_pos hsn] at h2
      obtain ⟨t, h4, h2⟩ := bind_eq_ok h2
      cases h2
      rw [if_pos (show Field.get .snapSink s = snap from hsn)]
      refine Sim.bind (Sim.rd hs r3) ?_
      obtain ⟨hk0, ht⟩ := getI_ok h4
      have hk1 : ¬ s.sinkTrackId < 0 := by omega
      rw [if_neg (show ¬ Field.get .sinkTrackId s < 0 from hk1)]
      obtain ⟨u, hu, hut⟩ : ∃ u, st[s.sinkTrackId.toNat]? = some u ∧ u.trackId = t.trackId := by
        have : (st.map Sub.trackId)[s.sinkTrackId.toNat]? = some t.trackId := by rw [hp, List.getElem?_map, ht]; rfl
        rw [List.getElem?_map] at this
        exact Option.map_eq_some_iff.1 this
      have hr : Sim A' w (rd (Field.get .sinkTrackId s).toNat .trackId) st t.trackId st := by
        have : Sim A' w (rd s.sinkTrackId.toNat .trackId) st u.trackId st := Sim.rd hu (r1 _)
        rwa [hut] at this
      have e1 : (st.set i { s with sinkTrackId := t.trackId })[i]? = some { s with sinkTrackId := t.trackId } := by simp [hil]
      have he : (st.set i { s with sinkTrackId := t.trackId }).map Sub.trackId = w.subs.map Sub.trackId := by
        rw [← hp]; exact map_set_same Sub.trackId hs rfl
      have hw : Sim A' w (wr i .sinkTrackId t.trackId) st () (st.set i { s with sinkTrackId := t.trackId }) := Sim.wr hs (f := .sinkTrackId) _ (w1 _)
      have hn : Sim A' w (rd i .nested) (st.set i { s with sinkTrackId := t.trackId }) s.nested (st.set i { s with sinkTrackId := t.trackId }) := Sim.rd e1 r4
      have hfin : Sim A' w (wr i .nested ts) (st.set i { s with sinkTrackId := t.trackId }) () (st.set i { s with nested := ts, sinkTrackId := t.trackId }) :=
        Sim.wr' hil (f := .nested) _ (w2 _)
      exact Sim.bind hr (Sim.bind hw (Sim.bind hn (Sim.bind (globalIds_sim he r1 _ _ h3) hfin)))
    · rw [if_neg hsn] at h2
      cases h2
      rw [if_neg (show ¬ Field.get .snapSink s = snap from hsn)]
      exact Sim.bind (Sim.rd hs r4) (Sim.bind (globalIds_sim hp r1 _ _ h3) (Sim.wr hs (f := .nested) _ (w2 _)))
  · intro i _ j _ _ st st' _ hp h
    rw [applyAt] at h
    obtain ⟨s, h1, h⟩ := bind_eq_ok h
    obtain ⟨s', h2, h⟩ := bind_eq_ok h
    obtain ⟨hil, rfl⟩ := set_ok h
    rw [← hp]
    refine map_set_same Sub.trackId (get_ok h1) ?_
    rw [globalizeOne] at h2
    obtain ⟨ts, h3, h2⟩ := bind_eq_ok h2
    split_ifs at h2 with hsn
    · obtain ⟨t, h4, h2⟩ := bind_eq_ok h2
      cases h2
      rfl
    · cases h2
      rfl

/-! ## All of `UpdateTracks` on a process -/

theorem closed_ranks {T : Nat → Prop} {st st' : List (Sub K D)} (h : Closed T st) (hr : RanksOnly st st') : Closed T st' := by
  intro i s hi hs k hk h0
  have : (st'.map Sub.nested)[i]? = some s.nested := by rw [List.getElem?_map, hs]; rfl
  rw [hr, List.getElem?_map] at this
  obtain ⟨u, hu, he⟩ := Option.map_eq_some_iff.1 this
  exact h i u hi hu k (by rw [he]; exact hk) h0

theorem canExtend_closed {subs : List (Sub K D)} {gs heads : List (List Nat)} (hc : List.Forall₂ (CanExtend subs) gs heads) (h : Nat) :
    Closed (memberOf gs h) subs ∧ ∀ (g hs : List Nat), gs[h]? = some g → heads[h]? = some hs → 2 ≤ g.length → ∀ x ∈ hs, x ∈ g := by
  obtain ⟨hl, hg⟩ := List.forall₂_iff_get.1 hc
  have hat : ∀ (g hs : List Nat), gs[h]? = some g → heads[h]? = some hs → CanExtend subs g hs := by
    intro g hs h1 h2
    obtain ⟨l1, rfl⟩ := List.getElem?_eq_some_iff.1 h1
    obtain ⟨l2, rfl⟩ := List.getElem?_eq_some_iff.1 h2
    exact hg h l1 l2
  constructor
  · rintro i s ⟨g, h1, hi⟩ hs k hk h0
    refine ⟨g, h1, ?_⟩
    have l1 : h < heads.length := by rw [← hl]; exact (List.getElem?_eq_some_iff.1 h1).1
    rcases hat _ _ h1 (List.getElem?_eq_getElem l1) with ⟨f, hf⟩ | rfl | ⟨c, s', rfl, e1, e2⟩
    · exact hf.nodes.mem_iff.1 (shows_closed hf.shows_ i s (hf.nodes.mem_iff.2 hi) hs k hk)
    · cases hi
    · rw [List.mem_singleton] at hi
      subst hi
      rw [hs] at e1
      cases e1
      rw [e2] at hk
      cases hk
  · intro g hs h1 h2 h3 x hx
    rcases hat _ _ h1 h2 with ⟨f, hf⟩ | rfl | ⟨c, s', rfl, e1, e2⟩
    · exact hf.nodes.mem_iff.1 (roots_subset _ (hf.roots.mem_iff.2 hx))
    · simp at h3
    · simp at h3

theorem assignRanksFrom_fold {t : MemberTable} : ∀ (k : Nat) (h : Int) (gs : List (List Nat)) (st : List (Sub K D)), readGroups t k h = .ok gs →
    assignRanksFrom t k h st = foldOk (fun g => setRanks (fun i => (i : Int)) g 0) gs st := by
  intro k
  induction k with
  | zero => intro h gs st hr; cases hr; rfl
  | succ k ih =>
    intro h gs st hr
    rw [readGroups] at hr
    obtain ⟨g, h1, hr⟩ := bind_eq_ok hr
    obtain ⟨gs', h2, hr⟩ := bind_eq_ok hr
    cases hr
    rw [assignRanksFrom, h1, Outcome.bind_ok, foldOk]
    congr 1
    funext st1
    exact ih _ _ _ h2

theorem update_completes [LinearOrder K] (hbad : ∀ a b, bad a b → Races a b) {sort : List (Sub K D) → List Nat → List Nat} (hsort : SortsByMass sort)
    {snap : Int} {haloIds : List Int} {heads : List (List Nat)} {reg out : List (Sub K D)}
    (hhost : ∀ s ∈ reg, -1 ≤ s.hostHaloId ∧ s.hostHaloId < haloIds.length)
    (hext : ∀ gs : List (List Nat), gs.length = haloIds.length →
      (∀ (h : Nat) (g : List Nat), gs[h]? = some g → g.Perm (membersOf true reg (h : Int))) → List.Forall₂ (CanExtend reg) gs heads)
    (hrun : updateLocal sort snap haloIds heads reg = .ok out) :
    ∃ t gs f, buildTable sort haloIds.length reg true = .ok t ∧ readGroups t haloIds.length 0 = .ok gs ∧ t.group (-1) = .ok f ∧
      ∀ w : World K D, w.subs = reg → w.groups = gs → w.heads = heads → w.field = f →
        Completes bad (updatePhases (sort reg) snap haloIds reg.length reg.length haloIds.length f.length) (memOf w)
          (memOf { w with subs := out, groups := gs.map (sort reg), field := sort reg f }) := by
  obtain ⟨t, et, ft⟩ := C23_build sort hsort haloIds.length reg true (fun s hs _ => hhost s hs)
  obtain ⟨all, ea, fa, hre⟩ := resort_files hsort ft
  have hLex : ∀ h : Int, ∃ ids, -1 ≤ h → h < haloIds.length → t.group h = .ok ids ∧ ids.Perm (membersOf true reg h) := by
    intro h
    by_cases hr : -1 ≤ h ∧ h < haloIds.length
    · obtain ⟨ids, e, p, _⟩ := ft.lists h hr.1 hr.2
      exact ⟨ids, fun _ _ => ⟨e, p⟩⟩
    · exact ⟨[], fun h1 h2 => absurd ⟨h1, h2⟩ hr⟩
  choose L hL using hLex
  have hread := readGroups_ok t L haloIds.length 0 (fun x h1 h2 => (hL x (by omega) (by omega)).1)
  have hread' := readGroups_ok ⟨all, t.groups, t.nBirth⟩ (fun x => sort reg (L x)) haloIds.length 0
    (fun x h1 h2 => hre x _ (hL x (by omega) (by omega)).1)
  obtain ⟨gs, hgs⟩ : ∃ gs, gs = (List.range haloIds.length).map (fun i : Nat => L (0 + i)) := ⟨_, rfl⟩
  have hgs' : (List.range haloIds.length).map (fun i : Nat => sort reg (L (0 + i))) = gs.map (sort reg) := by
    rw [hgs, List.map_map]; rfl
  have hglen : gs.length = haloIds.length := by rw [hgs]; simp
  rw [← hgs] at hread
  rw [hgs'] at hread'
  have hgsget : ∀ (h : Nat) (g : List Nat), gs[h]? = some g → g.Perm (membersOf true reg (h : Int)) := by
    intro h g hg
    rw [hgs, List.getElem?_map] at hg
    by_cases hh : h < haloIds.length
    · rw [List.getElem?_range hh, Option.map_some, Option.some.injEq] at hg
      rw [← hg]
      simpa using (hL (h : Int) (by omega) (by omega)).2
    · rw [List.getElem?_eq_none (by simpa using hh)] at hg
      cases hg
  have hgin : ∀ g ∈ gs, ∀ i ∈ g, i < reg.length := by
    intro g hg i hi
    obtain ⟨h, hh⟩ := List.getElem?_of_mem hg
    exact membersOf_lt _ _ _ i ((hgsget h g hh).mem_iff.1 hi)
  obtain ⟨f, hf⟩ : ∃ f, f = L (-1) := ⟨_, rfl⟩
  have hfe : t.group (-1) = .ok f ∧ f.Perm (membersOf true reg (-1)) := by rw [hf]; exact hL (-1) (by omega) (by omega)
  have hfin : ∀ i ∈ f, i < reg.length := fun i hi => membersOf_lt _ _ _ i (hfe.2.mem_iff.1 hi)
  have hsget : ∀ (h : Nat) (g : List Nat), (gs.map (sort reg))[h]? = some g → g.Perm (membersOf true reg (h : Int)) := by
    intro h g hg
    rw [List.getElem?_map] at hg
    obtain ⟨g0, hg0, rfl⟩ := Option.map_eq_some_iff.1 hg
    exact (hsort reg g0 (hgin g0 (List.mem_of_getElem? hg0))).1.trans (hgsget h g0 hg0)
  have hcan := hext (gs.map (sort reg)) (by rw [List.length_map, hglen]) hsget
  refine ⟨t, gs, f, et, hread, hfe.1, ?_⟩
  intro w ew eg eh ef
  rw [updateLocal, et, Outcome.bind_ok, ea, Outcome.bind_ok] at hrun
  simp only [hread', Outcome.bind_ok] at hrun
  obtain ⟨s1, e1, hrun⟩ := bind_eq_ok hrun
  obtain ⟨s3, e3, hrun⟩ := bind_eq_ok hrun
  obtain ⟨s4, e4, hrun⟩ := bind_eq_ok hrun
  obtain ⟨s5, e5, hrun⟩ := bind_eq_ok hrun
  rw [assignRanks, hre (-1) f hfe.1, Outcome.bind_ok] at e3
  obtain ⟨s2, e2, e3⟩ := bind_eq_ok e3
  rw [setRanks_zero] at e2
  have hnum : t.groups.length - 1 = haloIds.length := by rw [ft.number]; rfl
  simp only [hnum] at e3
  rw [assignRanksFrom_fold _ _ _ _ hread'] at e3
  have hdis : ∀ a b, a ≠ b → ∀ x, memberOf (gs.map (sort reg)) a x → ¬ memberOf (gs.map (sort reg)) b x := by
    intro a b hab x ha hb
    obtain ⟨g, h1, h2⟩ := ha
    obtain ⟨g', h3, h4⟩ := hb
    obtain ⟨s, q1, q2, _⟩ := (mem_membersOf ..).1 ((hsget a g h1).mem_iff.1 h2)
    obtain ⟨s', q3, q4, _⟩ := (mem_membersOf ..).1 ((hsget b g' h3).mem_iff.1 h4)
    rw [q1] at q3
    cases q3
    rw [q2] at q4
    exact hab (by exact_mod_cast q4)
  -- the phases
  have p1 := sort_completes (bad := bad) hbad (w := w) (sort reg) (by rw [ew, eg]; exact hgin) (by rw [ew, ef]; exact hfin)
  obtain ⟨w1, hw1⟩ : ∃ w1 : World K D, w1 = { w with groups := gs.map (sort reg), field := sort reg f } := ⟨_, rfl⟩
  have g1 : w1.groups = gs.map (sort reg) := by rw [hw1]
  obtain ⟨p2, l2, c2⟩ := extend_completes (bad := bad) hbad (w := w1) (by rw [g1]; exact hdis)
    (fun h => by rw [hw1]; simp only [ew]; exact (canExtend_closed hcan h).1)
    (fun h g hs h1 h2 => by
      rw [hw1] at h1 h2
      simp only [eh] at h2
      exact (canExtend_closed hcan h).2 g hs h1 h2) (fuel := reg.length) (out := s1) (by rw [hw1]; simp only [ew, eh]; exact e1)
  have p3 := fieldRank_completes (bad := bad) hbad (w := w1.withSubs s1) (by
    rw [hw1]
    exact ((hsort reg f hfin).1.trans hfe.2).nodup_iff.2 (membersOf_nodup _ _ _)) (out := s2) (by rw [hw1]; exact e2)
  have r2 : RanksOnly s1 s2 := fold_nested (fun g st st' h => rank_nested h) _ _ _ (by rw [← rankZero_fold]; exact e2)
  obtain ⟨p4, r3⟩ := rankGroups_completes (bad := bad) hbad (w := (w1.withSubs s1).withSubs s2) (by
    show ∀ a b, a ≠ b → ∀ x, memberOf w1.groups a x → ¬ memberOf w1.groups b x
    rw [g1]; exact hdis) (out := s3) (by
    show foldOk _ w1.groups s2 = _
    rw [g1]; exact e3)
  have l3 : s3.length = reg.length := by
    have q1 := congrArg List.length r3
    have q2 := congrArg List.length r2
    simp only [List.length_map] at q1 q2
    rw [q1]
    show s2.length = _
    rw [q2, l2, hw1, ← ew]
  obtain ⟨p5, l5⟩ := depth_completes (bad := bad) hbad (w := ((w1.withSubs s1).withSubs s2).withSubs s3) (by
    show ∀ a b, a ≠ b → ∀ x, memberOf w1.groups a x → ¬ memberOf w1.groups b x
    rw [g1]; exact hdis) (fun h => closed_ranks (closed_ranks (c2 h) r2) r3) (fuel := reg.length) (out := s4) (by
    show fillDepth reg.length w1.groups s3 = _
    rw [g1, ← l3]; exact e4)
  obtain ⟨p6, l6⟩ := refresh_completes (bad := bad) hbad (w := (((w1.withSubs s1).withSubs s2).withSubs s3).withSubs s4) (snap := snap) (haloIds := haloIds)
    (out := s5) e5
  have p7 := globalize_completes (bad := bad) hbad (w := ((((w1.withSubs s1).withSubs s2).withSubs s3).withSubs s4).withSubs s5) (snap := snap) (out := out) hrun
  have n1 : w1.groups.length = haloIds.length := by rw [g1, List.length_map, hglen]
  have n2 : w1.field.length = f.length := by rw [hw1]; exact (hsort reg f hfin).1.length_eq
  have n3 : s4.length = reg.length := by rw [l5]; exact l3
  have n4 : s5.length = reg.length := by rw [l6]; exact n3
  rw [eg, ef, ← hw1, hglen] at p1
  simp only [World.withSubs] at p2 p3 p4 p5 p6 p7
  rw [n1] at p2 p4 p5
  rw [n2] at p3
  rw [n3] at p6
  rw [n4] at p7
  rw [updatePhases]
  have hend : { w with subs := out, groups := gs.map (sort reg), field := sort reg f } = { w1 with subs := out } := by rw [hw1]
  rw [hend]
  exact completes_cons p1 (completes_cons p2 (completes_cons p3 (completes_cons p4 (completes_cons p5 (completes_cons p6 p7)))))

end HBT.Threads
