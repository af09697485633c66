import Verif.Lemmas.ThreadsPhases
/-!
# Helper lemmas: `MergeSubhalos` under every schedule
-/
namespace HBT.Threads
open HBT HBT.Model HBT.Spec HBT.Spec.Forest
variable {K D E S Q α : Type} {bad : Access Loc (Loc.Val K D) → Access Loc (Loc.Val K D) → Prop}

/-! ## Loops with other state -/

theorem foot_loop (hbad : ∀ a b, bad a b → Races a b) {σ : Type} (enc : σ → Mem Loc (Loc.Val K D)) (f : Nat → σ → Outcome σ)
    (p : Nat → TProg K D Unit) (R W : Nat → Loc → Prop) (Pre : Nat → σ → Prop) {is js : List Nat} {st st' : σ} (hnd : is.Nodup)
    (hperm : is.Perm js) (hdis : ∀ i ∈ is, ∀ j ∈ is, i ≠ j → ∀ ℓ, W i ℓ → ¬ R j ℓ ∧ ¬ W j ℓ)
    (hsim : ∀ i ∈ is, ∀ st st', Pre i st → f i st = .ok st' → Does (foot (R i) (W i)) (p i) (enc st) () (enc st'))
    (hpre : ∀ i ∈ is, ∀ j ∈ is, i ≠ j → ∀ st st', Pre i st → Pre j st → f i st = .ok st' → Pre j st')
    (h0 : ∀ i ∈ is, Pre i st) (hrun : runAll f is st = .ok st') : Completes bad [js.map p] (enc st) (enc st') :=
  loop_completes enc f p (fun i => foot (R i) (W i)) Pre hnd hperm
    (fun i hi j hj hne => clear_foot hbad (hdis i hi j hj hne) (fun ℓ hℓ => (hdis j hj i hi (Ne.symm hne) ℓ hℓ).1)) hsim hpre h0 hrun

theorem runAll_pair {σ τ : Type} {f : Nat → σ → Outcome σ} {g : Nat → τ → Outcome τ} : ∀ (is : List Nat) (a a' : σ) (b b' : τ),
    runAll f is a = .ok a' → runAll g is b = .ok b' →
    runAll (fun i x => do let u ← f i x.1; let v ← g i x.2; .ok (u, v)) is (a, b) = .ok (a', b') := by
  intro is
  induction is with
  | nil => intro a a' b b' h1 h2; cases h1; cases h2; rfl
  | cons i is ih =>
    intro a a' b b' h1 h2
    rw [runAll] at h1 h2 ⊢
    obtain ⟨a1, e1, h1⟩ := bind_eq_ok h1
    obtain ⟨b1, e2, h2⟩ := bind_eq_ok h2
    simp only [e1, e2, Outcome.bind_ok]
    exact ih a1 a' b1 b' h1 h2

theorem runAll_set {γ : Type} (v : Nat → γ) : ∀ (is : List Nat) (l : List γ), (∀ i ∈ is, i < l.length) →
    ∃ l', runAll (fun i l => Outcome.set l i (v i)) is l = .ok l' ∧ l'.length = l.length ∧
      ∀ j, j < l.length → (j ∈ is → l'[j]? = some (v j)) ∧ (j ∉ is → l'[j]? = l[j]?) := by
  intro is
  induction is with
  | nil => intro l _; exact ⟨l, rfl, rfl, fun j hj => ⟨fun h => (by cases h), fun _ => rfl⟩⟩
  | cons i is ih =>
    intro l h
    have hi := h i List.mem_cons_self
    obtain ⟨l', e, hl, hj⟩ := ih (l.set i (v i)) (fun j hj => by rw [List.length_set]; exact h j (List.mem_cons_of_mem _ hj))
    rw [List.length_set] at hl hj
    refine ⟨l', by rw [runAll, Outcome.set_of_lt hi, Outcome.bind_ok, e], hl, fun j hjl => ?_⟩
    obtain ⟨h1, h2⟩ := hj j hjl
    by_cases hm : j ∈ is
    · exact ⟨fun _ => h1 hm, fun hn => absurd (List.mem_cons_of_mem _ hm) hn⟩
    · rw [h2 hm]
      constructor
      · intro hj'
        rcases List.mem_cons.1 hj' with rfl | hj'
        · exact List.getElem?_set_self hi
        · exact absurd hj' hm
      · intro hj'
        exact List.getElem?_set_ne (fun e => hj' (by rw [e]; exact List.mem_cons_self))

/-! ## The memory -/

variable {A : Access Loc (Loc.Val K D) → Prop}

theorem does_nestSize {w : World K D} {h n : Nat} (hl : h < w.nestSize.length) (hA : A (.write (.nestSize h) n)) :
    Does A (store (Loc.nestSize h) n) (memOf w) () (memOf { w with nestSize := w.nestSize.set h n }) := by
  have := Does.store (A := A) (ℓ := Loc.nestSize h) (m := memOf w) (old := w.nestSize[h]) n (by simp [memOf, hl]) hA
  have e : Function.update (memOf w) (.nestSize h) (some n) = memOf { w with nestSize := w.nestSize.set h n } := by
    funext ℓ
    by_cases e : ℓ = .nestSize h
    · subst e; rw [Function.update_self]; simp [memOf, hl]
    · rw [Function.update_of_ne e]
      cases ℓ with
      | nestSize j =>
        have : h ≠ j := fun hj => e (by rw [hj])
        simp [memOf, List.getElem?_set_ne this]
      | _ => rfl
  rwa [e] at this

theorem does_hostTrack {w : World K D} {h : Nat} {n : Int} (hl : h < w.hostTrack.length) (hA : A (.write (.hostTrack h) n)) :
    Does A (store (Loc.hostTrack h) n) (memOf w) () (memOf { w with hostTrack := w.hostTrack.set h n }) := by
  have := Does.store (A := A) (ℓ := Loc.hostTrack h) (m := memOf w) (old := w.hostTrack[h]) n (by simp [memOf, hl]) hA
  have e : Function.update (memOf w) (.hostTrack h) (some n) = memOf { w with hostTrack := w.hostTrack.set h n } := by
    funext ℓ
    by_cases e : ℓ = .hostTrack h
    · subst e; rw [Function.update_self]; simp [memOf, hl]
    · rw [Function.update_of_ne e]
      cases ℓ with
      | hostTrack j =>
        have : h ≠ j := fun hj => e (by rw [hj])
        simp [memOf, List.getElem?_set_ne this]
      | core j =>
        by_cases hj : j < w.hostTrack.length
        · simp [memOf, hj]
        · simp [memOf, hj]
      | _ => rfl
  rwa [e] at this

theorem does_isMerged {w : World K D} {h : Nat} {b : Bool} (hl : h < w.isMerged.length) (hA : A (.write (.isMerged h) b)) :
    Does A (store (Loc.isMerged h) b) (memOf w) () (memOf { w with isMerged := w.isMerged.set h b }) := by
  have := Does.store (A := A) (ℓ := Loc.isMerged h) (m := memOf w) (old := w.isMerged[h]) b (by simp [memOf, hl]) hA
  have e : Function.update (memOf w) (.isMerged h) (some b) = memOf { w with isMerged := w.isMerged.set h b } := by
    funext ℓ
    by_cases e : ℓ = .isMerged h
    · subst e; rw [Function.update_self]; simp [memOf, hl]
    · rw [Function.update_of_ne e]
      cases ℓ with
      | isMerged j =>
        have : h ≠ j := fun hj => e (by rw [hj])
        simp [memOf, List.getElem?_set_ne this]
      | _ => rfl
  rwa [e] at this

/-! ## `GlueHeadNests` -/

/-- `RootNestSize` as a function. -/
def nestOf (groups : List (List Nat)) (before : List (Sub K D)) (h : Nat) : Nat :=
  match groups[h]? with
  | some (c :: _) => ((before[c]?).map (fun s => s.nested.length)).getD 0
  | _ => 0

theorem rootNestSize_ok {groups : List (List Nat)} {before : List (Sub K D)} {h n : Nat} (e : rootNestSize groups before h = .ok n) :
    n = nestOf groups before h := by
  rw [rootNestSize] at e
  obtain ⟨g, h1, h2⟩ := bind_eq_ok e
  unfold nestOf
  rw [get_ok h1]
  cases g with
  | nil => cases h2; rfl
  | cons c t =>
    obtain ⟨s, h3, h4⟩ := bind_eq_ok h2
    cases h4
    simp [get_ok h3]

variable {nold : Nat}

theorem glueHost_frame {groups heads : List (List Nat)} {h : Nat} {st st' : List (Sub K D)} (hf : glueHost groups heads h st = .ok st') (x : Nat)
    (hx : ¬ memberOf groups h x) : st'[x]? = st[x]? := by
  rw [glueHost] at hf
  obtain ⟨g, h1, h2⟩ := bind_eq_ok hf
  cases g with
  | nil => cases h2; rfl
  | cons c t =>
    obtain ⟨hs, h3, h4⟩ := bind_eq_ok h2
    cases hs with
    | nil => cases h4
    | cons a others =>
      rw [glue] at h4
      obtain ⟨s, h5, h6⟩ := bind_eq_ok h4
      obtain ⟨_, rfl⟩ := set_ok h6
      exact List.getElem?_set_ne (fun e => hx (by rw [← e]; exact ⟨_, get_ok h1, List.mem_cons_self⟩))

theorem glue_completes (hbad : ∀ a b, bad a b → Races a b) {w : World K D} (h : Layout w.subs nold w.groups w.heads w.field)
    (hns : w.nestSize.length = w.groups.length) {order : List Nat} (ho : order.Perm (List.range w.groups.length)) {glued : List (Sub K D)}
    (hrun : runAll (glueHost w.groups w.heads) order w.subs = .ok glued) :
    ∃ ns, Completes bad [(List.range w.groups.length).map glueHostP] (memOf w) (memOf { w with subs := glued, nestSize := ns }) ∧
      ∀ n, n < w.groups.length → ns[n]? = some (nestOf w.groups w.subs n) := by
  obtain ⟨ns, e2, hl, hns'⟩ := runAll_set (nestOf w.groups w.subs) order w.nestSize (fun i hi => by
    rw [hns]; exact List.mem_range.1 (ho.mem_iff.1 hi))
  have hpair := runAll_pair order _ _ _ _ hrun e2
  refine ⟨ns, ?_, fun n hn => (hns' n (by omega)).1 (ho.mem_iff.2 (List.mem_range.2 hn))⟩
  refine foot_loop (σ := List (Sub K D) × List Nat) hbad (fun x => memOf { w with subs := x.1, nestSize := x.2 }) _ glueHostP
    (fun _ ℓ => (∃ n, ℓ = .group n) ∨ ∃ n, ℓ = .heads n) (fun i ℓ => (∃ j f, ℓ = .sub j f ∧ memberOf w.groups i j) ∨ ℓ = .nestSize i)
    (fun i x => ∀ j, memberOf w.groups i j → x.1[j]? = w.subs[j]?) (ho.nodup_iff.2 List.nodup_range) ho ?_ ?_ ?_ (fun _ _ _ _ => rfl) hpair
  · rintro i _ j _ hne ℓ (⟨k, f, rfl, hk⟩ | rfl)
    · refine ⟨(by rintro (⟨n, e⟩ | ⟨n, e⟩) <;> cases e), ?_⟩
      rintro (⟨k', f', e, hk'⟩ | e)
      · cases e
        exact layout_apart h hne hk hk'
      · cases e
    · refine ⟨(by rintro (⟨n, e⟩ | ⟨n, e⟩) <;> cases e), ?_⟩
      rintro (⟨k', f', e, hk'⟩ | e)
      · cases e
      · cases e; exact hne rfl
  · rintro i hi ⟨st, nl⟩ ⟨st', nl'⟩ hp hf
    obtain ⟨st1, h1, hf⟩ := bind_eq_ok hf
    obtain ⟨nl1, h2, hf⟩ := bind_eq_ok hf
    cases hf
    obtain ⟨hil, rfl⟩ := set_ok h2
    have hown : ∀ j, memberOf w.groups i j → Owns (foot (fun ℓ => (∃ n, ℓ = .group n) ∨ ∃ n, ℓ = .heads n)
        (fun ℓ => (∃ j f, ℓ = .sub j f ∧ memberOf w.groups i j) ∨ ℓ = .nestSize i) : Access Loc (Loc.Val K D) → Prop) j :=
      fun j hj f => ⟨Or.inr (Or.inl ⟨j, f, rfl, hj⟩), fun _ => Or.inl ⟨j, f, rfl, hj⟩⟩
    rw [glueHost] at h1
    obtain ⟨g, h3, h4⟩ := bind_eq_ok h1
    have hg := get_ok h3
    rw [glueHostP]
    refine Does.bind (a := g) (m1 := memOf { w with subs := st, nestSize := nl }) (Does.load hg (Or.inl (Or.inl ⟨i, rfl⟩))) ?_
    cases g with
    | nil =>
      cases h4
      have e : nestOf w.groups w.subs i = 0 := by simp [nestOf, hg]
      rw [e]
      exact does_nestSize (w := { w with subs := st, nestSize := nl }) hil (Or.inr rfl)
    | cons c t =>
      have hc : memberOf w.groups i c := ⟨_, hg, List.mem_cons_self⟩
      obtain ⟨hs, h5, h6⟩ := bind_eq_ok h4
      have hh := get_ok h5
      have hcl : Closed (memberOf w.groups i) st := (layout_closed h i).local hp
      obtain ⟨a1, _⟩ := glue_sim (w := { w with nestSize := nl.set i (nestOf w.groups w.subs i) }) hown hc (layout_headsIn h i hs hh) hcl h6
      obtain ⟨s, hs'⟩ : ∃ s, st[c]? = some s := by
        cases hs with
        | nil => cases h6
        | cons a others =>
          rw [glue] at h6
          obtain ⟨s, h7, _⟩ := bind_eq_ok h6
          exact ⟨s, get_ok h7⟩
      have e : nestOf w.groups w.subs i = s.nested.length := by
        have := hp c hc
        simp only at this
        rw [hs'] at this
        simp [nestOf, hg, ← this]
      refine Does.bind (a := s.nested) (m1 := memOf { w with subs := st, nestSize := nl }) (does_rd (w := { w with subs := st, nestSize := nl }) hs' (hown c hc _).1) ?_
      refine Does.bind (a := ()) (m1 := memOf { w with subs := st, nestSize := nl.set i (nestOf w.groups w.subs i) }) ?_ ?_
      · rw [e]
        exact does_nestSize (w := { w with subs := st, nestSize := nl }) hil (Or.inr rfl)
      · exact Does.bind (a := hs) (m1 := memOf { w with subs := st, nestSize := nl.set i (nestOf w.groups w.subs i) })
          (Does.load hh (Or.inl (Or.inr ⟨i, rfl⟩))) a1
  · rintro i hi j hj hne ⟨st, nl⟩ ⟨st', nl'⟩ hpi hpj hf x hx
    obtain ⟨st1, h1, hf⟩ := bind_eq_ok hf
    obtain ⟨nl1, h2, hf⟩ := bind_eq_ok hf
    cases hf
    simp only at h1 hpj ⊢
    rw [glueHost_frame h1 x (layout_apart h (Ne.symm hne) hx)]
    exact hpj x hx

/-! ## `FillHostTrackIds` -/

theorem glued_parent {before glued : List (Sub K D)} {groups heads : List (List Nat)} {field : List Nat}
    (h : Layout before nold groups heads field)
    (hg1 : ∀ (i : Nat) (s : Sub K D), before[i]? = some s → ∃ s', glued[i]? = some s' ∧ GluedSub groups i s s')
    (hl : glued.length = before.length) (hg2 : List.Forall₂ (GluedTree before glued) groups heads) {i j : Nat} {s t : Sub K D}
    (hs : glued[i]? = some s) (ht : glued[j]? = some t) {k : Int} (hk : k ∈ s.nested) (hk' : k ∈ t.nested) : i = j := by
  obtain ⟨x, rfl, g, hg, hi, hx⟩ := glued_nested h hg1 hl hg2 hs hk
  obtain ⟨y, e, g', hg', hj, hy⟩ := glued_nested h hg1 hl hg2 ht hk'
  obtain rfl : x = y := by exact_mod_cast e
  obtain ⟨n, hn, rfl⟩ := List.getElem_of_mem hg
  obtain ⟨n', hn', rfl⟩ := List.getElem_of_mem hg'
  have hnn : n = n' := by
    by_contra hne
    exact h.disjoint (List.getElem?_eq_getElem hn) (List.getElem?_eq_getElem hn') hne hx hy
  subst hnn
  have hn2 : n < heads.length := by have := hg2.length_eq; omega
  have hnd : groups[n].Nodup := by
    have := h.nodup
    rw [List.nodup_flatten] at this
    exact this.1 _ (List.getElem_mem hn)
  have htree := (List.forall₂_iff_get.1 hg2).2 n hn hn2
  simp only [List.get_eq_getElem] at htree
  revert hi hj hx hnd htree
  generalize groups[n] = g
  generalize heads[n] = hd
  intro hi hx hj hnd htree
  cases htree with
  | empty => cases hi
  | tops c t k rest h1 h2 h3 =>
    have hmem : ∀ z, z ∈ (Forest.cons c (k ++ rest) .nil).nodes ↔ z ∈ c :: t := fun z => by
      rw [← h2.mem_iff]
      simp [nodes_cons, nodes_append]
    have hnd' : (Forest.cons c (k ++ rest) .nil).nodes.Nodup := by
      have : (Forest.cons c (k ++ rest) .nil).nodes = (Forest.cons c k rest).nodes := by simp [nodes_cons, nodes_append, nodes_nil]
      rw [this]
      exact h2.nodup_iff.2 hnd
    have child : ∀ z u, z ∈ c :: t → glued[z]? = some u → (x : Int) ∈ u.nested → IsChild z x (Forest.cons c (k ++ rest) .nil) := by
      intro z u hz hu hxu
      obtain ⟨l, hl'⟩ := shows_mem h3 ((hmem z).2 hz)
      obtain ⟨s', q1, q2⟩ := hl'
      rw [hu] at q1
      cases q1
      have hyl : x ∈ l := by
        rw [q2] at hxu
        obtain ⟨z', hz', hze⟩ := List.mem_map.1 hxu
        have : z' = x := by exact_mod_cast hze
        rwa [this] at hz'
      exact kids_isChild (idxKids_unique _) ⟨_, hu, q2⟩ hyl h3 ((hmem z).2 hz)
    exact isChild_unique hnd' (child i s hi hs hk) (child j _ hj ht hk')

theorem fillNest_does {w : World K D} {i : Nat} : ∀ (ks hosts hosts' : List Int), (∀ k ∈ ks, 0 ≤ k → A (.write (.hostTrack k.toNat) (i : Int))) →
    fillNest i ks hosts = .ok hosts' → Does A (fillNestP i ks) (memOf { w with hostTrack := hosts }) () (memOf { w with hostTrack := hosts' }) := by
  intro ks
  induction ks with
  | nil => intro hosts hosts' _ h; cases h; exact Does.pure _ _ _
  | cons k ks ih =>
    intro hosts hosts' hA h
    rw [fillNest] at h
    split_ifs at h with hk
    obtain ⟨h1, h2, h3⟩ := bind_eq_ok h
    obtain ⟨hl, rfl⟩ := set_ok h2
    rw [fillNestP, if_neg hk]
    exact Does.bind (does_hostTrack (w := { w with hostTrack := hosts }) hl (hA k List.mem_cons_self (by omega)))
      (ih _ _ (fun k' hk' => hA k' (List.mem_cons_of_mem _ hk')) h3)

theorem fill_completes (hbad : ∀ a b, bad a b → Races a b) {w : World K D}
    (hpar : ∀ (i j : Nat) (s t : Sub K D), w.subs[i]? = some s → w.subs[j]? = some t → ∀ k ∈ s.nested, k ∈ t.nested → i = j)
    (hneg : ∀ (i : Nat) (s : Sub K D), w.subs[i]? = some s → ∀ k ∈ s.nested, 0 ≤ k)
    {each : List Nat} (he : each.Perm (List.range w.subs.length)) {hosts : List Int}
    (hrun : runAll (fillHost w.subs) each w.hostTrack = .ok hosts) :
    Completes bad [(List.range w.subs.length).map fillHostP] (memOf w) (memOf { w with hostTrack := hosts }) := by
  refine foot_loop (σ := List Int) (st := w.hostTrack) hbad (fun x => memOf { w with hostTrack := x }) _ fillHostP (fun _ ℓ => ∃ j f, ℓ = .sub j f)
    (fun i ℓ => ∃ s k, w.subs[i]? = some s ∧ k ∈ s.nested ∧ ℓ = .hostTrack k.toNat) (fun _ _ => True) (he.nodup_iff.2 List.nodup_range) he ?_ ?_
    (fun _ _ _ _ _ _ _ _ _ _ => trivial) (fun _ _ => trivial) hrun
  · rintro i _ j _ hne ℓ ⟨s, k, hs, hk, rfl⟩
    refine ⟨(by rintro ⟨j', f, e⟩; cases e), ?_⟩
    rintro ⟨t, k', ht, hk', e⟩
    injection e with e
    have h1 := hneg i s hs k hk
    have h2 := hneg j t ht k' hk'
    obtain rfl : k = k' := by omega
    exact hne (hpar i j s t hs ht k hk hk')
  · intro i _ hosts hosts' _ h
    rw [fillHost] at h
    obtain ⟨s, h1, h2⟩ := bind_eq_ok h
    have hs := get_ok h1
    rw [fillHostP]
    exact Does.bind (does_rd (w := { w with hostTrack := hosts }) hs (Or.inl ⟨i, _, rfl⟩))
      (fillNest_does _ _ _ (fun k hk _ => ⟨s, k, hs, hk, rfl⟩) h2)

/-! ## `FillCores` -/

theorem runAll_unit (is : List Nat) : runAll (fun _ (_ : Unit) => Outcome.ok ()) is () = .ok () := by
  induction is with
  | nil => rfl
  | cons i is ih => rw [runAll, Outcome.bind_ok, ih]

theorem core_completes (hbad : ∀ a b, bad a b → Races a b) {w : World K D} (hl : w.hostTrack.length = w.subs.length) :
    Completes bad [(List.range w.subs.length).map coreP] (memOf w) (memOf w) := by
  refine foot_loop (σ := Unit) (st := ()) (st' := ()) hbad (fun _ => memOf w) (fun _ _ => .ok ()) coreP (fun _ ℓ => ∃ j f, ℓ = .sub j f) (fun i ℓ => ℓ = .core i)
    (fun _ _ => True) List.nodup_range (List.Perm.refl _) ?_ ?_ (fun _ _ _ _ _ _ _ _ _ _ => trivial) (fun _ _ => trivial) (runAll_unit _)
  · rintro i _ j _ hne ℓ rfl
    refine ⟨(by rintro ⟨j', f, e⟩; cases e), ?_⟩
    intro e
    cases e
    exact hne rfl
  · intro i hi _ _ _ _
    rw [List.mem_range] at hi
    have hs : w.subs[i]? = some w.subs[i] := List.getElem?_eq_getElem hi
    have hc : memOf w (.core i) = some () := by simp [memOf, hl, hi]
    have := Does.store (A := foot (fun ℓ => ∃ j f, ℓ = Loc.sub j f) (fun ℓ => ℓ = .core i)) (ℓ := Loc.core i) (m := memOf w) (old := ()) () hc rfl
    rw [← hc, Function.update_eq_self] at this
    rw [coreP]
    exact Does.bind (does_rd hs (Or.inl ⟨i, _, rfl⟩)) (Does.bind (does_rd hs (Or.inl ⟨i, _, rfl⟩)) this)

/-! ## `DetectTraps` -/

/-- What an iteration of `DetectTraps` accesses. -/
inductive DetFoot (i : Nat) : Access Loc (Loc.Val K D) → Prop
  | nbound (j : Nat) : DetFoot i (.read (.sub j .nbound))
  | host (j : Nat) : DetFoot i (.read (.hostTrack j))
  | core (j : Nat) : DetFoot i (.read (.core j))
  | sink : DetFoot i (.read (.sub i .sinkTrackId))
  | setSink (v : Int) : DetFoot i (.write (.sub i .sinkTrackId) v)
  | setSnap (v : Int) : DetFoot i (.write (.sub i .snapSink) v)
  | merged (h : Nat) : DetFoot i (.write (.isMerged h) true)

theorem clashes_interferes {a b : Access Loc (Loc.Val K D)} (h : Clashes a b) : Interferes a b := by
  refine ⟨?_, ?_, h.2⟩
  · have := h.1
    cases a <;> cases b <;> first | exact this | cases this
  · rintro ⟨ℓ, ℓ', rfl, rfl⟩
    exact h.1

theorem detFoot_clear {i j : Nat} (hne : i ≠ j) :
    Clear Clashes (DetFoot i : Access Loc (Loc.Val K D) → Prop) (DetFoot j) := by
  intro a b ha hb
  have key : ¬ Interferes a b := by
    rintro ⟨h1, h2, h3⟩
    cases ha <;> cases hb <;> simp only [Access.loc, Loc.sub.injEq, Loc.isMerged.injEq, reduceCtorEq, and_false] at h1 <;>
      first
      | exact h2 ⟨_, _, rfl, rfl⟩
      | exact hne h1.1
      | (subst h1; exact h3 ⟨_, _, rfl, rfl⟩)
  exact ⟨key, fun h => key (clashes_interferes h), fun h => key (clashes_interferes h).symm⟩

theorem findSink_does {w : World K D} {sunk : Nat → Nat → Bool} {i : Nat} (hl : w.hostTrack.length = w.subs.length) :
    ∀ (fuel : Nat) (h : Int) (t : Option Nat), findSink sunk w.subs w.hostTrack i fuel h = .ok t →
      Does (DetFoot i) (findSinkP sunk i fuel h) (memOf w) t (memOf w) := by
  intro fuel
  induction fuel with
  | zero => intro h t e; cases e
  | succ fuel ih =>
    intro h t e
    rw [findSink] at e
    rw [findSinkP]
    by_cases h0 : h < 0
    · rw [if_pos h0] at e ⊢
      cases e; exact Does.pure _ _ _
    · rw [if_neg h0] at e ⊢
      obtain ⟨u, h1, e⟩ := bind_eq_ok e
      have hu := get_ok h1
      have hlt := (List.getElem?_eq_some_iff.1 hu).1
      refine Does.bind (does_rd hu (.nbound _)) ?_
      have hc : memOf w (.core h.toNat) = some () := by simp [memOf, hl, hlt]
      by_cases hg : 1 < u.nbound ∧ sunk i h.toNat = true
      · rw [if_pos hg] at e
        cases e
        rw [if_pos (show 1 < Field.get .nbound u from hg.1)]
        refine Does.bind (Does.load hc (.core _)) ?_
        rw [if_pos hg.2]
        exact Does.pure _ _ _
      · rw [if_neg hg] at e
        obtain ⟨h', h2, e⟩ := bind_eq_ok e
        have hrest := Does.bind (f := findSinkP sunk i fuel) (Does.load (A := DetFoot i) (m := memOf w) (ℓ := .hostTrack h.toNat) (get_ok h2) (.host _)) (ih h' t e)
        by_cases hb : 1 < u.nbound
        · rw [if_pos (show 1 < Field.get .nbound u from hb)]
          refine Does.bind (Does.load hc (.core _)) ?_
          rw [if_neg (fun hs => hg ⟨hb, hs⟩)]
          exact hrest
        · rw [if_neg (show ¬ 1 < Field.get .nbound u from hb)]
          exact hrest

theorem findSink_lt {sunk : Nat → Nat → Bool} {subs : List (Sub K D)} {hosts : List Int} {i : Nat} : ∀ (fuel : Nat) (h : Int) (p : Nat),
    findSink sunk subs hosts i fuel h = .ok (some p) → p < subs.length := by
  intro fuel
  induction fuel with
  | zero => intro h p e; cases e
  | succ fuel ih =>
    intro h p e
    rw [findSink] at e
    by_cases h0 : h < 0
    · rw [if_pos h0] at e; cases e
    rw [if_neg h0] at e
    obtain ⟨u, h1, e⟩ := bind_eq_ok e
    split_ifs at e with hg
    · cases e; exact (List.getElem?_eq_some_iff.1 (get_ok h1)).1
    · obtain ⟨h', h2, e⟩ := bind_eq_ok e
      exact ih _ _ e

theorem findSink_congr {sunk : Nat → Nat → Bool} {st st' : List (Sub K D)} {hosts : List Int} {i : Nat}
    (hnb : st'.map Sub.nbound = st.map Sub.nbound) : ∀ (fuel : Nat) (h : Int),
    findSink sunk st' hosts i fuel h = findSink sunk st hosts i fuel h := by
  intro fuel
  induction fuel with
  | zero => intro h; rfl
  | succ fuel ih =>
    intro h
    rw [findSink, findSink]
    split_ifs with h0
    · rfl
    · have hj : (st'[h.toNat]?).map Sub.nbound = (st[h.toNat]?).map Sub.nbound := by
        rw [← List.getElem?_map, ← List.getElem?_map, hnb]
      unfold Outcome.get
      cases h1 : st[h.toNat]? with
      | none =>
        rw [h1, Option.map_none, Option.map_eq_none_iff] at hj
        rw [hj]
        rfl
      | some t =>
        rw [h1] at hj
        obtain ⟨t', h2, h3⟩ := Option.map_eq_some_iff.1 hj
        rw [h2]
        simp only [Outcome.bind_ok, h3]
        split_ifs
        · rfl
        · congr 1
          funext h'
          exact ih h'

/-- The flag that one iteration sets. -/
def flagStep (t : Option Nat) (nb : Nat) (m : List Bool) : Outcome (List Bool) :=
  match t with
  | none => .ok m
  | some h => if 1 < nb then Outcome.set m h true else .ok m

/-- One iteration on the subhaloes and the flags. -/
def detStep (sunk : Nat → Nat → Bool) (snap : Int) (fuel : Nat) (hosts : List Int) (i : Nat) (x : List (Sub K D) × List Bool) :
    Outcome (List (Sub K D) × List Bool) := do
  let t ← trapOf sunk fuel x.1 hosts i
  let s ← Outcome.get x.1 i
  let st ← Outcome.set x.1 i (recordTrap snap s t)
  let m ← flagStep t s.nbound x.2
  .ok (st, m)

theorem detStep_does {w : World K D} {sunk : Nat → Nat → Bool} {snap : Int} {fuel i : Nat} {x x' : List (Sub K D) × List Bool}
    (hl : w.hostTrack.length = x.1.length) (h : detStep sunk snap fuel w.hostTrack i x = .ok x') :
    Does (DetFoot i) (detectP sunk snap fuel i) (memOf { w with subs := x.1, isMerged := x.2 }) () (memOf { w with subs := x'.1, isMerged := x'.2 }) := by
  obtain ⟨st, m⟩ := x
  rw [detStep] at h
  obtain ⟨t, h1, h⟩ := bind_eq_ok h
  obtain ⟨s, h2, h⟩ := bind_eq_ok h
  obtain ⟨st1, h3, h⟩ := bind_eq_ok h
  obtain ⟨m1, h4, h⟩ := bind_eq_ok h
  cases h
  simp only at h1 h2 h3 h4 hl ⊢
  have hs := get_ok h2
  obtain ⟨hi, rfl⟩ := set_ok h3
  rw [detectP]
  refine Does.bind (does_rd (w := { w with subs := st, isMerged := m }) hs .sink) ?_
  rw [trapOf, get_some hs, Outcome.bind_ok] at h1
  by_cases h0 : s.sinkTrackId ≠ nullTrack
  · rw [if_pos h0] at h1
    rw [if_pos (show Field.get .sinkTrackId s ≠ nullTrack from h0)]
    cases h1
    cases h4
    have : st.set i (recordTrap snap s none) = st := set_self hs
    rw [this]
    exact Does.pure _ _ _
  · rw [if_neg h0] at h1
    rw [if_neg (show ¬ Field.get .sinkTrackId s ≠ nullTrack from h0)]
    obtain ⟨hh, h5, h6⟩ := bind_eq_ok h1
    refine Does.bind (Does.load (ℓ := Loc.hostTrack i) (get_ok h5) (DetFoot.host _)) ?_
    refine Does.bind (findSink_does (w := { w with subs := st, isMerged := m }) hl _ _ _ h6) ?_
    cases t with
    | none =>
      cases h4
      have : st.set i (recordTrap snap s none) = st := set_self hs
      rw [this]
      exact Does.pure _ _ _
    | some p =>
      simp only
      refine Does.bind (does_wr (w := { w with subs := st, isMerged := m }) hs (f := .sinkTrackId) _ (.setSink _)) ?_
      have e1 : (st.set i (Field.put .sinkTrackId (p : Int) s))[i]? = some (Field.put .sinkTrackId (p : Int) s) := List.getElem?_set_self hi
      refine Does.bind (does_wr (w := { w with subs := st.set i (Field.put .sinkTrackId (p : Int) s), isMerged := m }) e1 (f := .snapSink) _ (.setSnap _)) ?_
      simp only [List.set_set]
      have e2 : (st.set i (recordTrap snap s (some p)))[i]? = some (recordTrap snap s (some p)) := List.getElem?_set_self hi
      refine Does.bind (does_rd (w := { w with subs := st.set i (recordTrap snap s (some p)), isMerged := m }) e2 (.nbound _)) ?_
      rw [flagStep] at h4
      by_cases hb : 1 < s.nbound
      · rw [if_pos hb] at h4
        rw [if_pos (show 1 < Field.get .nbound (recordTrap snap s (some p)) from hb)]
        obtain ⟨hp, rfl⟩ := set_ok h4
        exact does_isMerged (w := { w with subs := st.set i (recordTrap snap s (some p)), isMerged := m }) hp (.merged _)
      · rw [if_neg hb] at h4
        rw [if_neg (show ¬ 1 < Field.get .nbound (recordTrap snap s (some p)) from hb)]
        cases h4
        exact Does.pure _ _ _

theorem trapOf_congr {sunk : Nat → Nat → Bool} {fuel : Nat} {st st' : List (Sub K D)} {hosts : List Int} {i : Nat}
    (hnb : st'.map Sub.nbound = st.map Sub.nbound) (hi : st'[i]? = st[i]?) :
    trapOf sunk fuel st' hosts i = trapOf sunk fuel st hosts i := by
  rw [trapOf, trapOf]
  have : Outcome.get st' i = Outcome.get st i := by rw [Outcome.get, Outcome.get, hi]
  rw [this]
  congr 1
  funext s
  split_ifs
  · rfl
  · congr 1
    funext h
    exact findSink_congr hnb fuel h

theorem trapsOf_each {sunk : Nat → Nat → Bool} {fuel : Nat} {st : List (Sub K D)} {hosts : List Int} : ∀ (is : List Nat) (ts : List (Option Nat)),
    trapsOf sunk fuel st hosts is = .ok ts → List.Forall₂ (fun i t => trapOf sunk fuel st hosts i = .ok t) is ts := by
  intro is
  induction is with
  | nil => intro ts h; cases h; exact .nil
  | cons i is ih =>
    intro ts h
    rw [trapsOf] at h
    obtain ⟨t, h1, h⟩ := bind_eq_ok h
    obtain ⟨ts', h2, h⟩ := bind_eq_ok h
    cases h
    exact .cons h1 (ih _ h2)

/-- The subhaloes and flags after the first `k` iterations. -/
theorem detAll {sunk : Nat → Nat → Bool} {snap : Int} {fuel : Nat} {st : List (Sub K D)} {hosts : List Int} {ts : List (Option Nat)}
    (hlen : ts.length = st.length) (hts : ∀ i t, ts[i]? = some t → trapOf sunk fuel st hosts i = .ok t) :
    ∀ k, k ≤ st.length → ∃ x, runAll (detStep sunk snap fuel hosts) (List.range k) (st, List.replicate st.length false) = .ok x ∧
      x.1.length = st.length ∧ x.1.map Sub.nbound = st.map Sub.nbound ∧ x.2.length = st.length ∧
      (∀ i s t, st[i]? = some s → ts[i]? = some t → x.1[i]? = some (if i < k then recordTrap snap s t else s)) ∧
      ∀ p, p < st.length → (x.2[p]? = some true ↔ ∃ i s, i < k ∧ st[i]? = some s ∧ ts[i]? = some (some p) ∧ 1 < s.nbound) := by
  intro k
  induction k with
  | zero =>
    intro _
    refine ⟨_, rfl, rfl, rfl, by simp, fun i s t hs _ => by simpa using hs, fun p hp => ?_⟩
    simp [hp]
  | succ k ih =>
    intro hk
    obtain ⟨⟨st1, m1⟩, e, h1, h2, h3, h4, h5⟩ := ih (by omega)
    simp only at h1 h2 h3 h4 h5
    obtain ⟨s, hs⟩ : ∃ s, st[k]? = some s := ⟨_, List.getElem?_eq_getElem (by omega)⟩
    obtain ⟨t, ht⟩ : ∃ t, ts[k]? = some t := ⟨_, List.getElem?_eq_getElem (by omega)⟩
    have hk1 : st1[k]? = some s := by have := h4 k s t hs ht; simpa using this
    have htr : trapOf sunk fuel st1 hosts k = .ok t := by
      rw [trapOf_congr h2 (by rw [hk1, hs])]
      exact hts k t ht
    have hkl : k < st1.length := by omega
    have hflag : ∃ m2, flagStep t s.nbound m1 = .ok m2 ∧ m2.length = m1.length ∧
        ∀ p, p < st.length → (m2[p]? = some true ↔ m1[p]? = some true ∨ (t = some p ∧ 1 < s.nbound)) := by
      cases t with
      | none => exact ⟨m1, rfl, rfl, fun p _ => by simp⟩
      | some q =>
        rw [flagStep]
        by_cases hb : 1 < s.nbound
        · rw [if_pos hb]
          have hq : q < m1.length := by
            rw [trapOf, get_some hk1, Outcome.bind_ok] at htr
            by_cases h0 : s.sinkTrackId ≠ nullTrack
            · rw [if_pos h0] at htr; cases htr
            rw [if_neg h0] at htr
            obtain ⟨hh, _, htr⟩ := bind_eq_ok htr
            have := findSink_lt _ _ _ htr
            omega
          refine ⟨_, Outcome.set_of_lt hq, List.length_set, fun p hp => ?_⟩
          by_cases hpq : q = p
          · subst hpq
            simp [List.getElem?_set_self hq, hb]
          · simp [List.getElem?_set_ne hpq, hpq]
        · rw [if_neg hb]
          exact ⟨m1, rfl, rfl, fun p _ => by simp [hb]⟩
    obtain ⟨m2, f1, f2, f3⟩ := hflag
    refine ⟨(st1.set k (recordTrap snap s t), m2), ?_, by simp [h1], ?_, by simp only; omega, ?_, ?_⟩
    · rw [List.range_succ, runAll_append, e, Outcome.bind_ok, runAll]
      simp only [detStep, htr, get_some hk1, Outcome.set_of_lt hkl, f1, Outcome.bind_ok]
      rfl
    · simp only
      rw [map_set_same Sub.nbound hk1 (by cases t <;> rfl), h2]
    · intro i u v hu hv
      by_cases hik : k = i
      · subst hik
        rw [hs] at hu
        rw [ht] at hv
        cases hu
        cases hv
        simp [List.getElem?_set_self hkl]
      · simp only
        rw [List.getElem?_set_ne hik, h4 i u v hu hv]
        congr 1
        by_cases hi : i < k
        · rw [if_pos hi, if_pos (by omega)]
        · rw [if_neg hi, if_neg (by omega)]
    · intro p hp
      simp only
      rw [f3 p hp, h5 p hp]
      constructor
      · rintro (⟨i, u, a1, a2, a3, a4⟩ | ⟨rfl, hb⟩)
        · exact ⟨i, u, by omega, a2, a3, a4⟩
        · exact ⟨k, s, by omega, hs, ht, hb⟩
      · rintro ⟨i, u, a1, a2, a3, a4⟩
        by_cases hik : i = k
        · subst hik
          rw [hs] at a2
          rw [ht] at a3
          cases a2
          cases a3
          exact Or.inr ⟨rfl, a4⟩
        · exact Or.inl ⟨i, u, by omega, a2, a3, a4⟩

theorem detect_completes {w : World K D} {sunk : Nat → Nat → Bool} {snap : Int} {fuel : Nat} (hl : w.hostTrack.length = w.subs.length)
    (hm : w.isMerged = List.replicate w.subs.length false) {st : List (Sub K D)} {merged : List Nat}
    (hrun : detectTraps sunk snap fuel w.hostTrack w.subs = .ok (st, merged)) :
    ∃ m, Completes Clashes [(List.range w.subs.length).map (detectP sunk snap fuel)] (memOf w) (memOf { w with subs := st, isMerged := m }) ∧
      ∀ p, p < w.subs.length → m[p]? = some (decide (p ∈ merged)) := by
  rw [detectTraps] at hrun
  obtain ⟨ts, h1, h2⟩ := bind_eq_ok hrun
  have hts := List.forall₂_iff_get.1 (trapsOf_each _ _ h1)
  obtain ⟨hlen, hts⟩ := hts
  rw [List.length_range] at hlen
  obtain ⟨⟨st', m⟩, e, a1, a2, a3, a4, a5⟩ := detAll (snap := snap) (sunk := sunk) (fuel := fuel) (hosts := w.hostTrack) hlen.symm (by
    intro i t ht
    obtain ⟨hi, rfl⟩ := List.getElem?_eq_some_iff.1 ht
    have := hts i (by simp; omega) hi
    simpa using this) w.subs.length (Nat.le_refl _)
  simp only at a1 a2 a3 a4 a5
  injection h2 with h2
  injection h2 with h3 h4
  have hst : st' = st := by
    rw [← h3]
    apply List.ext_getElem?
    intro i
    by_cases hi : i < w.subs.length
    · have hs : w.subs[i]? = some w.subs[i] := List.getElem?_eq_getElem hi
      have ht : ts[i]? = some (ts[i]'(by omega)) := List.getElem?_eq_getElem (by omega)
      rw [a4 i _ _ hs ht, if_pos hi, List.getElem?_zipWith, hs, ht]
    · rw [List.getElem?_eq_none (by omega), List.getElem?_eq_none (by simp; omega)]
  subst hst
  refine ⟨m, ?_, ?_⟩
  · have h0 : memOf w = memOf { w with subs := (w.subs, w.isMerged).1, isMerged := (w.subs, w.isMerged).2 } := rfl
    rw [h0, hm]
    refine loop_completes (σ := List (Sub K D) × List Bool) (fun x => memOf { w with subs := x.1, isMerged := x.2 })
      (detStep sunk snap fuel w.hostTrack) (detectP sunk snap fuel)
      DetFoot (fun _ x => x.1.length = w.subs.length) List.nodup_range (List.Perm.refl _)
      (fun i _ j _ hne => detFoot_clear hne) ?_ ?_ (fun _ _ => rfl) e
    · intro i hi x x' hp hf
      exact detStep_does (by rw [hl, hp]) hf
    · intro i hi j hj hne x x' hp _ hf
      rw [detStep] at hf
      obtain ⟨t, h1, hf⟩ := bind_eq_ok hf
      obtain ⟨s, h2, hf⟩ := bind_eq_ok hf
      obtain ⟨st1, h3, hf⟩ := bind_eq_ok hf
      obtain ⟨m1, h4, hf⟩ := bind_eq_ok hf
      cases hf
      obtain ⟨_, rfl⟩ := set_ok h3
      simp [hp]
  · intro p hp
    have hmem : p ∈ merged ↔ m[p]? = some true := by
      rw [a5 p hp, ← h4, List.mem_filterMap]
      constructor
      · rintro ⟨⟨s, t⟩, hz, hx⟩
        obtain ⟨i, hi⟩ := List.mem_iff_getElem?.1 hz
        rw [List.getElem?_zip_eq_some] at hi
        simp only at hx
        split_ifs at hx with hb
        exact ⟨i, s, (List.getElem?_eq_some_iff.1 hi.1).1, hi.1, by rw [hi.2, hx], hb⟩
      · rintro ⟨i, s, b1, b2, b3, b4⟩
        exact ⟨(s, some p), List.mem_iff_getElem?.2 ⟨i, List.getElem?_zip_eq_some.2 ⟨b2, b3⟩⟩, by simp [b4]⟩
    obtain ⟨b, hb⟩ : ∃ b, m[p]? = some b := ⟨_, List.getElem?_eq_getElem (by omega)⟩
    rw [hb] at hmem ⊢
    cases b <;> simp_all

/-! ## `MergeSubhalos` -/

theorem fillHost_length {subs : List (Sub K D)} (i : Nat) (hosts hosts' : List Int) (h : fillHost subs i hosts = .ok hosts') :
    hosts'.length = hosts.length := by
  rw [fillHost] at h
  obtain ⟨s, _, h'⟩ := bind_eq_ok h
  clear h
  revert h'
  generalize s.nested = ks
  induction ks generalizing hosts with
  | nil => intro h; cases h; rfl
  | cons k ks ih =>
    intro h
    rw [fillNest] at h
    split_ifs at h
    obtain ⟨h1, h2, h3⟩ := bind_eq_ok h
    obtain ⟨_, rfl⟩ := set_ok h2
    rw [ih _ h3, List.length_set]

theorem runAll_length {γ : Type} {f : Nat → List γ → Outcome (List γ)} (hf : ∀ i l l', f i l = .ok l' → l'.length = l.length) :
    ∀ (is : List Nat) (l l' : List γ), runAll f is l = .ok l' → l'.length = l.length := by
  intro is
  induction is with
  | nil => intro l l' h; cases h; rfl
  | cons i is ih =>
    intro l l' h
    rw [runAll] at h
    obtain ⟨l1, h1, h2⟩ := bind_eq_ok h
    rw [ih _ _ h2, hf _ _ _ h1]

variable [LT E] [DecidableLT E] [Zero E] [MassSum K] {cfg : UnbindConfig} {env : Nat → UnbindEnv K D E} {snap : Int}

theorem trapped_completes (hbad : ∀ a b, bad a b → Races a b) {mass : D → K} {w : World K D} {before : List (Sub K D)} (h : Layout before nold w.groups w.heads w.field)
    {fuel : Nat} {merged order each : List Nat} (ho : order.Perm (List.range w.groups.length)) (he : each.Perm (List.range w.subs.length))
    (hm : ∀ p, p < w.subs.length → w.isMerged[p]? = some (decide (p ∈ merged))) (hcl : ∀ n, Closed (memberOf w.groups n) w.subs)
    (hsk : ∀ n, SinksIn (memberOf w.groups n) w.subs) {out : List (Sub K D)}
    (hrun : mergeTrapped cfg env mass snap fuel order each w.groups merged w.subs = .ok out) :
    ∀ rest m, Completes bad rest (memOf (w.withSubs out)) m →
      Completes bad ((List.range w.groups.length).map (mergeHostP mass snap fuel) :: (List.range w.subs.length).map (unbindMergedP cfg env snap) ::
        (List.range w.subs.length).map (truncMergedP cfg) :: rest) (memOf w) m := by
  rw [mergeTrapped] at hrun
  obtain ⟨st1, h1, hrun⟩ := bind_eq_ok hrun
  obtain ⟨st2, h2, h3⟩ := bind_eq_ok hrun
  obtain ⟨c1, l1, _⟩ := subs_loop hbad w (mergeHost mass snap fuel w.groups) (mergeHostP mass snap fuel) (memberOf w.groups)
    (fun n st => Closed (memberOf w.groups n) st ∧ SinksIn (memberOf w.groups n) st) (ho.nodup_iff.2 List.nodup_range) ho
    (fun i _ j hne x => layout_apart h hne)
    (fun i _ st st' hp hf => mergeHost_sim hp.1 hp.2 hf) (fun j st st' hp he => ⟨hp.1.local he, hp.2.local he⟩) (fun i _ => ⟨hcl i, hsk i⟩) h1
  obtain ⟨c2, l2⟩ := each_loop (bad := bad) hbad w (unbindMerged cfg env snap merged) (unbindMergedP cfg env snap) (he.nodup_iff.2 List.nodup_range) he
    (fun i hi st st' hf => by
      have hi' := List.mem_range.1 (he.mem_iff.1 hi)
      rw [unbindMergedP]
      have hld : Sim (ownFoot (· = i)) w (load (Loc.isMerged i)) st (decide (i ∈ merged)) st := Sim.load (hm i hi') (own_read (by simp))
      refine Sim.bind hld ?_
      rw [unbindMerged] at hf
      by_cases hmem : i ∈ merged
      · rw [if_pos hmem] at hf
        rw [if_pos (by simpa using hmem)]
        exact unbindAt_sim (A := ownFoot (· = i)) (w := w) (ownFoot_owns (T := (· = i)) rfl) hf
      · rw [if_neg hmem] at hf
        rw [if_neg (by simpa using hmem)]
        cases hf
        exact Sim.pure _) h2
  obtain ⟨c3, l3⟩ := each_loop (bad := bad) hbad w (truncMerged cfg merged) (truncMergedP cfg) (he.nodup_iff.2 List.nodup_range) he
    (fun i hi st st' hf => by
      have hi' := List.mem_range.1 (he.mem_iff.1 hi)
      rw [truncMergedP]
      have hld : Sim (ownFoot (· = i)) w (load (Loc.isMerged i)) st (decide (i ∈ merged)) st := Sim.load (hm i hi') (own_read (by simp))
      refine Sim.bind hld ?_
      rw [truncMerged] at hf
      by_cases hmem : i ∈ merged
      · rw [if_pos hmem] at hf
        rw [if_pos (by simpa using hmem)]
        obtain ⟨s, h4, h5⟩ := bind_eq_ok hf
        exact applyAt_sim (g := fun s => .ok (truncateSource cfg s)) (A := ownFoot (· = i)) (ownFoot_owns (T := (· = i)) rfl)
          (by rw [applyAt, h4, Outcome.bind_ok, Outcome.bind_ok, h5])
      · rw [if_neg hmem] at hf
        rw [if_neg (by simpa using hmem)]
        cases hf
        exact Sim.pure _) h3
  exact fun rest m c4 => completes_cons c1 (completes_cons c2 (completes_cons c3 c4))

theorem unglue_completes (hbad : ∀ a b, bad a b → Races a b) {w : World K D} {before : List (Sub K D)} (h : Layout before nold w.groups w.heads w.field)
    {order : List Nat} (ho : order.Perm (List.range w.groups.length))
    (hn : ∀ n, n < w.groups.length → w.nestSize[n]? = some (nestOf w.groups before n)) {out : List (Sub K D)}
    (hrun : runAll (unglueHost w.groups before) order w.subs = .ok out) :
    Completes bad [(List.range w.groups.length).map unglueHostP] (memOf w) (memOf (w.withSubs out)) := by
  refine (subs_loop hbad w (unglueHost w.groups before) unglueHostP (memberOf w.groups) (fun _ _ => True) (ho.nodup_iff.2 List.nodup_range) ho
    (fun i _ j hne x => layout_apart h hne) ?_ (fun _ _ _ _ _ => trivial) (fun _ _ => trivial) hrun).1
  intro i hi st st' _ hf
  refine ⟨?_, trivial⟩
  rw [unglueHost] at hf
  obtain ⟨g, h1, h2⟩ := bind_eq_ok hf
  have hg := get_ok h1
  rw [unglueHostP]
  have hld : Sim (ownFoot (memberOf w.groups i)) w (load (Loc.group i)) st g st := Sim.load hg (own_read (by simp))
  refine Sim.bind hld ?_
  cases g with
  | nil => cases h2; exact Sim.pure _
  | cons c t =>
    have hown : Owns (ownFoot (memberOf w.groups i) : Access Loc (Loc.Val K D) → Prop) c := ownFoot_owns ⟨_, hg, List.mem_cons_self⟩
    obtain ⟨n, h3, h4⟩ := bind_eq_ok h2
    obtain rfl := rootNestSize_ok h3
    have hld : Sim (ownFoot (memberOf w.groups i)) w (load (Loc.nestSize i)) st (nestOf w.groups before i) st :=
      Sim.load (hn i (List.mem_range.1 (ho.mem_iff.1 hi))) (own_read (by simp))
    refine Sim.bind hld ?_
    rw [unglue] at h4
    obtain ⟨s, h5, h6⟩ := bind_eq_ok h4
    have hs := get_ok h5
    obtain ⟨_, rfl⟩ := set_ok h6
    rw [unglueP]
    exact Sim.bind (Sim.rd hs (hown _).1) (Sim.wr hs (f := .nested) _ ((hown _).2 _))

theorem merge_completes {mass : D → K} {on : Bool} {sunk : Nat → Nat → Bool} {w : World K D} (h : Layout w.subs nold w.groups w.heads w.field)
    (hset : ∀ s ∈ w.subs, Alive s → s.sinkTrackId = nullTrack)
    (hns : w.nestSize.length = w.groups.length) (hht : w.hostTrack = List.replicate w.subs.length (-1))
    (him : w.isMerged = List.replicate w.subs.length false) {fuel : Nat} (hfuel : w.subs.length < fuel) {order each : List Nat}
    (ho : order.Perm (List.range w.groups.length)) (he : each.Perm (List.range w.subs.length)) {out : List (Sub K D)}
    (hrun : mergeSubhalos cfg env mass on sunk snap fuel order each w.groups w.heads w.subs = .ok out) :
    ∃ w' : World K D, w'.subs = out ∧ w'.groups = w.groups ∧ w'.heads = w.heads ∧ w'.field = w.field ∧
      Completes Clashes (mergePhases cfg env mass on sunk snap fuel w.subs.length w.groups.length) (memOf w) (memOf w') := by
  have hbad : ∀ a b : Access Loc (Loc.Val K D), Clashes a b → Races a b := fun _ _ h => h.1
  rw [mergeSubhalos] at hrun
  obtain ⟨glued, h1, hrun⟩ := bind_eq_ok hrun
  obtain ⟨hosts, h2, hrun⟩ := bind_eq_ok hrun
  obtain ⟨⟨st, merged⟩, h3, hrun⟩ := bind_eq_ok hrun
  simp only at hrun
  obtain ⟨glued', e1, hl, hg1, hg2⟩ := glueAll_ok h ho
  rw [h1] at e1
  cases e1
  obtain ⟨glued', hosts', st', merged', traps, e1, e2, e3, hd⟩ := detect_ok sunk snap h hfuel ho he
  rw [h1] at e1
  cases e1
  rw [h2] at e2
  cases e2
  rw [h3] at e3
  cases e3
  obtain ⟨ns, c1, hn⟩ := glue_completes hbad h hns ho h1
  have hhl : hosts.length = glued.length := by
    have := runAll_length (fun i l l' => fillHost_length i l l') _ _ _ h2
    rw [this, List.length_replicate]
  have c2 := fill_completes (w := { w with subs := glued, nestSize := ns }) hbad
    (fun i j s t hs ht k hk hk' => glued_parent h hg1 hl hg2 hs ht hk hk')
    (fun i s hs k hk => by obtain ⟨x, rfl, _⟩ := glued_nested h hg1 hl hg2 hs hk; omega)
    (each := each) (hosts := hosts) (by simp only; rw [hl]; exact he) (by simp only; rw [hht, ← hl]; exact h2)
  have c3 := core_completes (w := { w with subs := glued, nestSize := ns, hostTrack := hosts }) hbad hhl
  obtain ⟨m, c4, hm⟩ := detect_completes (w := { w with subs := glued, nestSize := ns, hostTrack := hosts }) (sunk := sunk) (snap := snap)
    (fuel := fuel) hhl (by simp only; rw [him, hl]) h3
  have hm' : ∀ p, p < st.length → m[p]? = some (decide (p ∈ merged)) := fun p hp => hm p (by simp only; rw [hl, ← hd.length]; exact hp)
  simp only at c2 c3 c4
  rw [hl] at c2 c3 c4
  -- the members of a host
  have hmem : ∀ {a b : Nat} {g : List Nat} {n : Nat}, g ∈ w.groups → a ∈ g → b ∈ g → memberOf w.groups n a → memberOf w.groups n b := by
    rintro a b g n hg ha hb ⟨g', hg', ha'⟩
    obtain ⟨n', hn', rfl⟩ := List.getElem_of_mem hg
    by_cases hnn : n = n'
    · subst hnn
      exact ⟨_, List.getElem?_eq_getElem hn', hb⟩
    · exact absurd ha' (h.disjoint (List.getElem?_eq_getElem hn') hg' (Ne.symm hnn) ha)
  have hget : ∀ i u, st[i]? = some u → ∃ s, w.subs[i]? = some s := fun i u hu =>
    ⟨_, List.getElem?_eq_getElem (by rw [← hd.length]; exact (List.getElem?_eq_some_iff.1 hu).1)⟩
  -- the trees of the hosts, and the sinks in them
  have hcl : ∀ n, Closed (memberOf w.groups n) st := by
    intro n i u hi hu k hk _
    obtain ⟨s, hs⟩ := hget i u hu
    obtain ⟨v, hv, l, rfl, _⟩ := hg1 i s hs
    obtain ⟨l', q1, q2⟩ := hd.each i s hs
    have hgi : glued.length = st.length := by rw [hl, hd.length]
    rw [detectTraps] at h3
    obtain ⟨ts, _, h6⟩ := bind_eq_ok h3
    injection h6 with h6
    injection h6 with h6 _
    have hu' := hu
    rw [← h6, List.getElem?_zipWith, hv] at hu'
    have hkv : k ∈ (s.withNested (s.nested ++ l)).nested := by
      cases ht : ts[i]? with
      | none => rw [ht] at hu'; cases hu'
      | some t =>
        rw [ht] at hu'
        cases hu'
        rwa [recordTrap_nested] at hk
    obtain ⟨x, rfl, g, hg, hig, hxg⟩ := glued_nested h hg1 hl hg2 hv hkv
    exact hmem hg hig hxg hi
  have hsk : ∀ n, SinksIn (memberOf w.groups n) st := by
    intro n i u hi hu hsink hdeath
    obtain ⟨s, hs⟩ := hget i u hu
    obtain ⟨l, q1, _⟩ := hd.each i s hs
    rw [hu] at q1
    cases q1
    cases ht : traps i with
    | none =>
      rw [ht] at hsink hdeath
      exact absurd (hset s (List.mem_of_getElem? hs) hdeath) hsink
    | some p =>
      have hs0 : s.sinkTrackId = nullTrack := by
        by_contra hne
        rw [hd.old i s hs hne] at ht
        cases ht
      have := hd.found i s hs hs0
      rw [ht] at this
      obtain ⟨g, hg, hp, hig⟩ := contains_group h this.1
      rw [ht] at *
      exact hmem hg hig hp hi
  cases on with
  | false =>
    have h5 : runAll (unglueHost w.groups w.subs) order st = .ok out := hrun
    have c5 := unglue_completes (w := { w with subs := st, nestSize := ns, hostTrack := hosts, isMerged := m }) hbad h ho hn h5
    refine ⟨{ w with subs := out, nestSize := ns, hostTrack := hosts, isMerged := m }, rfl, rfl, rfl, rfl, ?_⟩
    exact completes_cons c1 (completes_cons c2 (completes_cons c3 (completes_cons c4 c5)))
  | true =>
    rw [if_pos rfl] at hrun
    obtain ⟨done, h4, h5⟩ := bind_eq_ok hrun
    have c5 := trapped_completes (w := { w with subs := st, nestSize := ns, hostTrack := hosts, isMerged := m }) hbad h ho
      (by simp only; rw [hd.length]; exact he) hm' hcl hsk h4
    simp only at c5
    rw [hd.length] at c5
    have c6 := unglue_completes (w := { w with subs := done, nestSize := ns, hostTrack := hosts, isMerged := m }) hbad h ho hn h5
    refine ⟨{ w with subs := out, nestSize := ns, hostTrack := hosts, isMerged := m }, rfl, rfl, rfl, rfl, ?_⟩
    exact completes_cons c1 (completes_cons c2 (completes_cons c3 (completes_cons c4 (c5 _ _ c6))))

end HBT.Threads
