import Verif.Lemmas.ThreadsSim
/-!
# Helper lemmas: masking, unbinding and merging as programs of threads
-/
namespace HBT.Threads
open HBT HBT.Model
variable {K D E S Q α : Type} {A : Access Loc (Loc.Val K D) → Prop} {w : World K D} {T : Nat → Prop}

theorem bind_none_ok {α β : Type} {x : Outcome α} {f : α → Outcome β} {b : β} (h : (x >>= f) = .ok b) : ∃ a, x = .ok a := by
  obtain ⟨a, h, _⟩ := bind_eq_ok h; exact ⟨a, h⟩

theorem glue_sim (hown : ∀ i, T i → Owns A i) {c : Nat} (hc : T c) {hs : List Nat} (hhs : ∀ x ∈ hs, T x) {st st' : List (Sub K D)}
    (hcl : Closed T st) (h : glue c hs st = .ok st') : Sim A w (glueP c hs) st () st' ∧ Closed T st' := by
  cases hs with
  | nil => cases h
  | cons a others =>
    rw [glue] at h
    obtain ⟨s, h1, h2⟩ := bind_eq_ok h
    have hs := get_ok h1
    obtain ⟨hi, rfl⟩ := set_ok h2
    refine ⟨?_, ?_⟩
    · rw [glueP]
      refine Sim.bind (Sim.rd hs (hown _ hc _).1) ?_
      exact Sim.wr hs (f := .nested) _ ((hown _ hc _).2 _)
    · refine hcl.set (fun _ k hk h0 => ?_)
      rw [Sub.withNested_nested, List.mem_append] at hk
      rcases hk with hk | hk
      · exact hcl c s hc hs k hk h0
      · obtain ⟨x, hx, rfl⟩ := List.mem_map.1 hk
        simpa using hhs x (List.mem_cons_of_mem _ hx)

theorem unglue_sim (hown : ∀ i, T i → Owns A i) {c n : Nat} (hc : T c) {st st' : List (Sub K D)} (hcl : Closed T st)
    (h : unglue c n st = .ok st') : Sim A w (unglueP c n) st () st' ∧ Closed T st' := by
  rw [unglue] at h
  obtain ⟨s, h1, h2⟩ := bind_eq_ok h
  have hs := get_ok h1
  obtain ⟨hi, rfl⟩ := set_ok h2
  refine ⟨?_, ?_⟩
  · rw [unglueP]
    refine Sim.bind (Sim.rd hs (hown _ hc _).1) ?_
    exact Sim.wr hs (f := .nested) _ ((hown _ hc _).2 _)
  · refine hcl.set (fun _ k hk h0 => ?_)
    exact hcl c s hc hs k (List.mem_of_mem_take hk) h0

/-! ## Masking -/

theorem maskOne_sim (hown : ∀ i, T i → Owns A i) {id : Nat} (hid : T id) {st st' : List Int × List (Sub K D)} (hcl : Closed T st.2)
    (h : maskOne id st = .ok st') : Sim A w (maskOneP id st.1) st.2 st'.1 st'.2 ∧ Closed T st'.2 := by
  rw [maskOne] at h
  obtain ⟨s, h1, h2⟩ := bind_eq_ok h
  have hs := get_ok h1
  have hr := Sim.rd (A := A) (w := w) hs (f := .nbound) (hown _ hid _).1
  by_cases hb : s.nbound ≤ 1
  · rw [if_pos hb] at h2
    cases h2
    refine ⟨?_, hcl⟩
    rw [maskOneP]
    refine Sim.bind hr ?_
    rw [show Field.get .nbound s = s.nbound from rfl, if_pos hb]
    exact Sim.pure _
  · rw [if_neg hb] at h2
    obtain ⟨subs, h3, h4⟩ := bind_eq_ok h2
    cases h4
    obtain ⟨hi, rfl⟩ := set_ok h3
    refine ⟨?_, hcl.set_same hs rfl⟩
    rw [maskOneP]
    refine Sim.bind hr ?_
    rw [show Field.get .nbound s = s.nbound from rfl, if_neg hb]
    refine Sim.bind (Sim.rd hs (hown _ hid _).1) (Sim.bind (Sim.wr hs (f := .particles) _ ((hown _ hid _).2 _)) ?_)
    exact Sim.pure _

theorem mask_sim (hown : ∀ i, T i → Owns A i) {fuel id : Nat} (hid : T id) {st st' : List Int × List (Sub K D)} (hcl : Closed T st.2)
    (h : mask fuel id st = .ok st') : Sim A w (maskP fuel id st.1) st.2 st'.1 st'.2 ∧ Closed T st'.2 := by
  refine visit_sim (tl := Prod.fst) (sb := Prod.snd) (Inv := fun st => Closed T st.2) (T := T) hown ?_ (fun _ h => h) ?_ ?_ ?_ fuel id st st' hcl hid h
  · intro id st ks h
    obtain ⟨s, h1, h2⟩ := bind_eq_ok h
    cases h2
    exact ⟨s, get_ok h1, rfl⟩
  · intro id st q _ _ h
    cases h
    exact Sim.pure _
  · intro id k st st' hI _ _ h
    cases h
    exact ⟨Sim.pure _, hI, rfl⟩
  · intro q id st st' hI hT h
    exact maskOne_sim hown hT hI h

/-- The members of host `h`. -/
def memberOf (groups : List (List Nat)) (h i : Nat) : Prop := ∃ g, groups[h]? = some g ∧ i ∈ g

/-- The heads of host `h` are members. -/
def HeadsIn (groups heads : List (List Nat)) : Prop := ∀ h hs, heads[h]? = some hs → ∀ x ∈ hs, memberOf groups h x

theorem own_read {ℓ : Loc} (h : ∀ j f, ℓ ≠ .sub j f) : (ownFoot T : Access Loc (Loc.Val K D) → Prop) (.read ℓ) := Or.inl h

theorem maskHost_sim (hheads : HeadsIn w.groups w.heads) {fuel h : Nat} {st st' : List (Sub K D)} (hcl : Closed (memberOf w.groups h) st)
    (hrun : maskHost fuel w.groups w.heads h st = .ok st') :
    Sim (ownFoot (memberOf w.groups h)) w (maskHostP fuel h) st () st' ∧ Closed (memberOf w.groups h) st' := by
  have hown : ∀ i, memberOf w.groups h i → Owns (ownFoot (memberOf w.groups h) : Access Loc (Loc.Val K D) → Prop) i := fun i => ownFoot_owns
  rw [maskHost] at hrun
  obtain ⟨g, h1, h2⟩ := bind_eq_ok hrun
  have hg := get_ok h1
  have hload : Sim (ownFoot (memberOf w.groups h)) w (load (Loc.group h)) st g st := Sim.load hg (own_read (by simp))
  cases g with
  | nil => cases h2; exact ⟨by rw [maskHostP]; exact Sim.bind hload (Sim.pure _), hcl⟩
  | cons c t =>
    obtain ⟨s, h3, h4⟩ := bind_eq_ok h2
    obtain ⟨hs, h5, h6⟩ := bind_eq_ok h4
    obtain ⟨st1, h7, h8⟩ := bind_eq_ok h6
    obtain ⟨r, h9, h10⟩ := bind_eq_ok h8
    have hc : memberOf w.groups h c := ⟨_, hg, List.mem_cons_self⟩
    have hh := get_ok h5
    obtain ⟨a1, c1⟩ := glue_sim (w := w) hown hc (hheads h hs hh) hcl h7
    obtain ⟨a2, c2⟩ := mask_sim (w := w) hown hc (st := ([], st1)) c1 h9
    obtain ⟨a3, c3⟩ := unglue_sim (w := w) hown hc c2 h10
    refine ⟨?_, c3⟩
    rw [maskHostP]
    refine Sim.bind hload (Sim.bind (Sim.rd (get_ok h3) (hown _ hc _).1) (Sim.bind (Sim.load hh (own_read (by simp))) ?_))
    exact Sim.bind a1 (Sim.bind a2 a3)

/-! ## Unbinding -/

theorem backup_sim (hown : ∀ i, T i → Owns A i) {id : Nat} (hid : T id) {st : List (Sub K D)} {q : Option (List (Particle D))}
    (h : backupOrphan id st = .ok q) : Sim A w (backupP id) st q st := by
  rw [backupOrphan] at h
  obtain ⟨s, h1, h2⟩ := bind_eq_ok h
  have hs := get_ok h1
  cases h2
  rw [backupP]
  refine Sim.bind (Sim.rd hs (hown _ hid _).1) ?_
  rw [show Field.get .nbound s = s.nbound from rfl]
  split_ifs with hb
  · exact Sim.bind (Sim.rd hs (hown _ hid _).1) (Sim.pure _)
  · exact Sim.pure _

theorem feedHost_sim (hown : ∀ i, T i → Owns A i) {id c : Nat} (hid : T id) (hc : T c) {st st' : List (Sub K D)} (hcl : Closed T st)
    (h : feedHost id c st = .ok st') : Sim A w (feedHostP id c) st () st' ∧ Closed T st' := by
  rw [feedHost] at h
  obtain ⟨t, h1, h2⟩ := bind_eq_ok h
  have ht := get_ok h1
  split_ifs at h2 with hb
  obtain ⟨s, h3, h4⟩ := bind_eq_ok h2
  have hs := get_ok h3
  obtain ⟨hi, rfl⟩ := set_ok h4
  refine ⟨?_, hcl.set_same hs rfl⟩
  rw [feedHostP]
  refine Sim.bind (Sim.rd ht (hown _ hc _).1) (Sim.bind (Sim.rd ht (hown _ hc _).1) ?_)
  rw [show Field.get .nbound t = t.nbound from rfl, show Field.get .particles t = t.particles from rfl, if_neg hb]
  exact Sim.bind (Sim.rd hs (hown _ hid _).1) (Sim.wr hs (f := .particles) _ ((hown _ hid _).2 _))

theorem die_nested (snap : Int) (s : Sub K D) : (die snap s).nested = s.nested := by
  unfold die
  split_ifs <;> rfl

theorem unbindFull_nested [LT E] [DecidableLT E] [Zero E] [MassSum K] {cfg : UnbindConfig} {env : UnbindEnv K D E} {snap : Int} {s s' : Sub K D}
    (h : unbindFull cfg env snap s = .ok s') : s'.nested = s.nested := by
  rw [unbindFull, unbind] at h
  obtain ⟨t, ht⟩ : ∃ t, t = (if s.particles.length < cfg.minNum then die snap s else s) := ⟨_, rfl⟩
  have e : t.nested = s.nested := by rw [ht]; split_ifs <;> simp [die_nested]
  simp only [← ht] at h
  rw [← e]
  split at h
  · cases h; rfl
  · cases h; rfl
  · obtain ⟨r, h1, h2⟩ := bind_eq_ok h
    cases r with
    | none =>
      obtain ⟨ps, h3, h4⟩ := bind_eq_ok h2
      cases h4
      exact die_nested snap (t.withParticles ps)
    | some r =>
      obtain ⟨ps, h3, h4⟩ := bind_eq_ok h2
      cases h4; rfl

theorem unbindNode_sim [LT E] [DecidableLT E] [Zero E] [MassSum K] {cfg : UnbindConfig} {env : Nat → UnbindEnv K D E} {snap : Int}
    (hown : ∀ i, T i → Owns A i) {q : Option (List (Particle D))} {id : Nat} (hid : T id) {st st' : List (Sub K D)} (hcl : Closed T st)
    (h : unbindNode cfg env snap q id st = .ok st') : Sim A w (unbindNodeP cfg env snap q id ()) st () st' ∧ Closed T st' := by
  rw [unbindNode] at h
  obtain ⟨s, h1, h2⟩ := bind_eq_ok h
  have hs := get_ok h1
  cases q with
  | none =>
    obtain ⟨s', h3, h4⟩ := bind_eq_ok h2
    obtain ⟨hi, rfl⟩ := set_ok h4
    exact ⟨sim_apply hs h3 (hown _ hid), hcl.set_same hs (unbindFull_nested h3)⟩
  | some own =>
    obtain ⟨s', h3, h4⟩ := bind_eq_ok h2
    obtain ⟨hi, rfl⟩ := set_ok h4
    refine ⟨sim_apply hs ?_ (hown _ hid), hcl.set_same hs (by simpa using unbindFull_nested h3)⟩
    rw [h3]; rfl

theorem recursiveUnbind_sim [LT E] [DecidableLT E] [Zero E] [MassSum K] {cfg : UnbindConfig} {env : Nat → UnbindEnv K D E} {snap : Int}
    (hown : ∀ i, T i → Owns A i) {fuel id : Nat} (hid : T id) {st st' : List (Sub K D)} (hcl : Closed T st)
    (h : recursiveUnbind cfg env snap fuel id st = .ok st') : Sim A w (recursiveUnbindP cfg env snap fuel id) st () st' ∧ Closed T st' := by
  refine visit_sim (S := Unit) (tl := fun _ => ()) (sb := fun st => st) (Inv := Closed T) (T := T) hown ?_ (fun _ h => h) ?_ ?_ ?_ fuel id st st' hcl hid h
  · intro id st ks h
    obtain ⟨s, h1, h2⟩ := bind_eq_ok h
    cases h2
    exact ⟨s, get_ok h1, rfl⟩
  · intro id st q _ hT h
    exact backup_sim hown hT h
  · intro id k st st' hI hT hk h
    obtain ⟨a, b⟩ := feedHost_sim (w := w) hown hT hk hI h
    exact ⟨a, b, rfl⟩
  · intro q id st st' hI hT h
    exact unbindNode_sim hown hT hI h

theorem refineHost_sim [LT E] [DecidableLT E] [Zero E] [MassSum K] {cfg : UnbindConfig} {env : Nat → UnbindEnv K D E} {snap : Int}
    (hheads : HeadsIn w.groups w.heads) {fuel h : Nat} {st st' : List (Sub K D)} (hcl : Closed (memberOf w.groups h) st)
    (hrun : refineHost cfg env snap fuel w.groups w.heads h st = .ok st') :
    Sim (ownFoot (memberOf w.groups h)) w (refineHostP cfg env snap fuel h) st () st' ∧ Closed (memberOf w.groups h) st' := by
  have hown : ∀ i, memberOf w.groups h i → Owns (ownFoot (memberOf w.groups h) : Access Loc (Loc.Val K D) → Prop) i := fun i => ownFoot_owns
  rw [refineHost] at hrun
  obtain ⟨g, h1, h2⟩ := bind_eq_ok hrun
  have hg := get_ok h1
  have hload : Sim (ownFoot (memberOf w.groups h)) w (load (Loc.group h)) st g st := Sim.load hg (own_read (by simp))
  cases g with
  | nil => cases h2; exact ⟨by rw [refineHostP]; exact Sim.bind hload (Sim.pure _), hcl⟩
  | cons c t =>
    obtain ⟨s, h3, h4⟩ := bind_eq_ok h2
    obtain ⟨hs, h5, h6⟩ := bind_eq_ok h4
    obtain ⟨st1, h7, h8⟩ := bind_eq_ok h6
    obtain ⟨r, h9, h10⟩ := bind_eq_ok h8
    have hc : memberOf w.groups h c := ⟨_, hg, List.mem_cons_self⟩
    have hh := get_ok h5
    obtain ⟨a1, c1⟩ := glue_sim (w := w) hown hc (hheads h hs hh) hcl h7
    obtain ⟨a2, c2⟩ := recursiveUnbind_sim (w := w) hown hc c1 h9
    obtain ⟨a3, c3⟩ := unglue_sim (w := w) hown hc c2 h10
    refine ⟨?_, c3⟩
    rw [refineHostP]
    refine Sim.bind hload (Sim.bind (Sim.rd (get_ok h3) (hown _ hc _).1) (Sim.bind (Sim.load hh (own_read (by simp))) ?_))
    exact Sim.bind a1 (Sim.bind a2 a3)

/-- One subhalo. -/
theorem unbindAt_sim [LT E] [DecidableLT E] [Zero E] [MassSum K] {cfg : UnbindConfig} {env : Nat → UnbindEnv K D E} {snap : Int}
    {i : Nat} (hown : Owns A i) {st st' : List (Sub K D)} (h : unbindAt cfg env snap i st = .ok st') :
    Sim A w (applyP (unbindFull cfg (env i) snap) i) st () st' := by
  rw [unbindAt] at h
  obtain ⟨s, h1, h2⟩ := bind_eq_ok h
  obtain ⟨s', h3, h4⟩ := bind_eq_ok h2
  obtain ⟨hi, rfl⟩ := set_ok h4
  exact sim_apply (get_ok h1) h3 hown

/-! ## Merging -/

/-- Those of `T` that are to be merged have their sink in `T`. -/
def SinksIn (T : Nat → Prop) (st : List (Sub K D)) : Prop :=
  ∀ i s, T i → st[i]? = some s → s.sinkTrackId ≠ nullTrack → s.snapDeath = nullSnap → T s.sinkTrackId.toNat

theorem SinksIn.local {st st' : List (Sub K D)} (h : SinksIn T st) (he : ∀ x, T x → st'[x]? = st[x]?) : SinksIn T st' :=
  fun i s hi hs => h i s hi (by rw [← he i hi]; exact hs)

theorem SinksIn.set {st : List (Sub K D)} (h : SinksIn T st) {i : Nat} {s : Sub K D}
    (hs : T i → s.sinkTrackId ≠ nullTrack → s.snapDeath = nullSnap → T s.sinkTrackId.toNat) : SinksIn T (st.set i s) := by
  intro j t hj ht
  by_cases e : i = j
  · subst e
    by_cases hi : i < st.length
    · simp only [List.getElem?_set_self hi, Option.some.injEq] at ht
      subst ht
      exact hs hj
    · rw [List.getElem?_eq_none (by simpa using hi)] at ht
      cases ht
  · rw [List.getElem?_set_ne e] at ht
    exact h j t hj ht

theorem getI_ok {γ : Type} {l : List γ} {i : Int} {x : γ} (h : Outcome.getI l i = .ok x) : 0 ≤ i ∧ l[i.toNat]? = some x := by
  unfold Outcome.getI at h
  split_ifs at h with hi
  exact ⟨by omega, get_ok h⟩

theorem mergeOne_sim [MassSum K] {mass : D → K} {snap : Int} (hown : ∀ i, T i → Owns A i) {id : Nat} (hid : T id) {st st' : List (Sub K D)}
    (hcl : Closed T st) (hsk : SinksIn T st) (h : mergeOne mass snap id st = .ok st') :
    Sim A w (mergeOneP mass snap id ()) st () st' ∧ Closed T st' ∧ SinksIn T st' := by
  rw [mergeOne] at h
  obtain ⟨s, h1, h2⟩ := bind_eq_ok h
  have hs := get_ok h1
  have hO := hown id hid
  by_cases hc : s.sinkTrackId ≠ nullTrack ∧ s.snapDeath = nullSnap
  · rw [if_pos hc] at h2
    have hT := hsk id s hid hs hc.1 hc.2
    by_cases he : s.sinkTrackId = (id : Int)
    · rw [if_pos he] at h2; cases h2
    · rw [if_neg he] at h2
      obtain ⟨u, h3, h4⟩ := bind_eq_ok h2
      obtain ⟨r, h5, h6⟩ := bind_eq_ok h4
      obtain ⟨st1, h7, h8⟩ := bind_eq_ok h6
      obtain ⟨h0, hu⟩ := getI_ok h3
      obtain ⟨hi1, rfl⟩ := set_ok h7
      obtain ⟨hi2, rfl⟩ := set_ok h8
      obtain ⟨k, hk⟩ : ∃ k, k = s.sinkTrackId.toNat := ⟨_, rfl⟩
      rw [← hk] at hu hi1 hT ⊢
      have hne : k ≠ id := by omega
      have hU := hown k hT
      rw [List.length_set] at hi2
      have hn : r.1.nested = s.nested ∧ r.2.nested = u.nested ∧ r.1.sinkTrackId = s.sinkTrackId ∧ r.2.sinkTrackId = u.sinkTrackId ∧
          r.2.snapDeath = u.snapDeath := by
        rw [mergeTo] at h5
        split_ifs at h5 with hb
        · cases h5; exact ⟨rfl, rfl, rfl, rfl, rfl⟩
        · split at h5
          · cases h5
          · cases h5; exact ⟨rfl, rfl, rfl, rfl, rfl⟩
      have hst1 : (st.set k r.2)[id]? = some s := by rw [List.getElem?_set_ne hne]; exact hs
      refine ⟨?_, ?_, ?_⟩
      · rw [mergeOneP]
        refine Sim.bind (Sim.rd hs (hO _).1) (Sim.bind (Sim.rd hs (hO _).1) ?_)
        rw [show Field.get .sinkTrackId s = s.sinkTrackId from rfl, show Field.get .snapDeath s = s.snapDeath from rfl, if_pos hc,
          if_neg (show ¬ (s.sinkTrackId = (id : Int) ∨ s.sinkTrackId < 0) by omega), ← hk]
        refine Sim.bind (a := ()) (st1 := (st.set k r.2).set id r.1) ?_ ?_
        · rw [mergeToP]
          refine Sim.bind (Sim.rd hs (hO _).1) ?_
          rw [show Field.get .nbound s = s.nbound from rfl]
          rw [mergeTo] at h5
          by_cases hb : s.nbound ≤ 1
          · rw [if_pos hb] at h5 ⊢
            cases h5
            rw [set_self hst1, set_self hu]
            exact Sim.pure _
          · rw [if_neg hb] at h5 ⊢
            refine Sim.bind (Sim.rd hs (hO _).1) (Sim.bind (Sim.rd hu (hU _).1) ?_)
            refine Sim.bind (Sim.wr hu (f := .particles) _ ((hU _).2 _)) ?_
            refine Sim.bind (Sim.rd (s := Field.put .particles _ u) (by simp [hi1]; rfl) (hU _).1) ?_
            refine Sim.bind (Sim.wr' hi1 (f := .nbound) _ ((hU _).2 _)) ?_
            rw [show Field.get .particles s = s.particles from rfl]
            simp only [Field.put, Field.get] at h5 ⊢
            cases hp : s.particles with
            | nil => rw [hp] at h5; cases h5
            | cons p t =>
              simp only [hp] at h5 ⊢
              cases h5
              have hi3 : id < (st.set k { u with particles := u.particles ++ (maskParticles (u.particles.map Particle.id) (p :: t)).2, nbound := u.nbound + s.nbound }).length := by
                simpa using hi2
              have key : ∀ x : Sub K D, x = { s with particles := [p], nbound := 1, mbound := mass p.data } → ∀ y, (y :: ([] : List (Particle D))) = [p] →
                Sim A w (do wr id .particles [p]; wr id .nbound 1; wr id .mbound (mass p.data))
                  ((st.set k { u with particles := u.particles ++ (maskParticles (u.particles.map Particle.id) (p :: t)).2, nbound := u.nbound + s.nbound }).set id s) ()
                  ((st.set k { u with particles := u.particles ++ (maskParticles (u.particles.map Particle.id) (p :: t)).2, nbound := u.nbound + s.nbound }).set id x) := by
                rintro x rfl y _
                refine Sim.bind (Sim.wr' hi3 (f := .particles) _ ((hO _).2 _)) (Sim.bind (Sim.wr' hi3 (f := .nbound) _ ((hO _).2 _)) ?_)
                have := Sim.wr' (A := A) (w := w) (s := { s with particles := [p], nbound := 1 }) hi3 (f := .mbound) (mass p.data) ((hO _).2 _)
                simp only [Field.put] at this ⊢
                exact this
              have := key _ rfl p rfl
              rw [set_self (x := s) (by rw [List.getElem?_set_ne hne]; exact hs)] at this
              exact this
        · exact Sim.wr' (by simpa using hi2) (f := .snapDeath) _ ((hO _).2 _)
      · exact (hcl.set_same hu hn.2.1).set_same hst1 hn.1
      · refine (hsk.set ?_).set ?_
        · rw [hn.2.2.2.1, hn.2.2.2.2]
          exact fun _ => hsk k u hT hu
        · intro _ _ _
          show T r.1.sinkTrackId.toNat
          rw [hn.2.2.1, ← hk]; exact hT
  · rw [if_neg hc] at h2
    cases h2
    refine ⟨?_, hcl, hsk⟩
    rw [mergeOneP]
    refine Sim.bind (Sim.rd hs (hO _).1) (Sim.bind (Sim.rd hs (hO _).1) ?_)
    rw [show Field.get .sinkTrackId s = s.sinkTrackId from rfl, show Field.get .snapDeath s = s.snapDeath from rfl, if_neg hc]
    exact Sim.pure _

theorem mergeHost_sim [MassSum K] {mass : D → K} {snap : Int} {fuel h : Nat} {st st' : List (Sub K D)}
    (hcl : Closed (memberOf w.groups h) st) (hsk : SinksIn (memberOf w.groups h) st) (hrun : mergeHost mass snap fuel w.groups h st = .ok st') :
    Sim (ownFoot (memberOf w.groups h)) w (mergeHostP mass snap fuel h) st () st' ∧ Closed (memberOf w.groups h) st' ∧
      SinksIn (memberOf w.groups h) st' := by
  have hown : ∀ i, memberOf w.groups h i → Owns (ownFoot (memberOf w.groups h) : Access Loc (Loc.Val K D) → Prop) i := fun i => ownFoot_owns
  rw [mergeHost] at hrun
  obtain ⟨g, h1, h2⟩ := bind_eq_ok hrun
  have hg := get_ok h1
  have hload : Sim (ownFoot (memberOf w.groups h)) w (load (Loc.group h)) st g st := Sim.load hg (own_read (by simp))
  cases g with
  | nil => cases h2; exact ⟨by rw [mergeHostP]; exact Sim.bind hload (Sim.pure _), hcl, hsk⟩
  | cons c t =>
    have hc : memberOf w.groups h c := ⟨_, hg, List.mem_cons_self⟩
    have key := visit_sim (S := Unit) (Q := Unit) (tl := fun _ => ()) (sb := fun st => st) (w := w)
      (Inv := fun st => Closed (memberOf w.groups h) st ∧ SinksIn (memberOf w.groups h) st) (T := memberOf w.groups h) hown
      (nest := fun id st => do let s ← Outcome.get st id; .ok s.nested) (enter := fun _ _ => .ok ()) (after := fun _ _ st => .ok st)
      (leave := fun _ => mergeOne mass snap) (enterP := fun _ => Pure.pure ()) (afterP := fun _ _ => Pure.pure ())
      (leaveP := fun _ => mergeOneP mass snap)
      (fun id st ks h => by obtain ⟨s, h1, h2⟩ := bind_eq_ok h; cases h2; exact ⟨s, get_ok h1, rfl⟩) (fun _ h => h.1)
      (fun id st q _ _ h => by cases h; exact Sim.pure _) (fun id k st st' hI _ _ h => by cases h; exact ⟨Sim.pure _, hI, rfl⟩)
      (fun q id st st' hI hT h => mergeOne_sim hown hT hI.1 hI.2 h) fuel c st st' ⟨hcl, hsk⟩ hc h2
    exact ⟨by rw [mergeHostP]; exact Sim.bind hload key.1, key.2⟩

end HBT.Threads
