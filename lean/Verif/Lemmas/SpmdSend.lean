import Verif.Lemmas.SpmdRun
import Verif.Model.SpmdSend
set_option linter.unusedSectionVars false
/-!
# One process sends to all
-/
namespace HBT.Spmd
variable {P : Nat} {α β τ : Type} {bf : Msg → Prop}

theorem Steps.to {s t u : State P α} (h : Steps bf s t) (e : t = u) : Steps bf s u := e ▸ h

/-- The messages for process `b` with tag `t`. -/
def pick (l : List (Fin P × Nat × Msg)) (b : Fin P) (t : Nat) : List Msg :=
  (l.filter (fun x => decide (x.1 = b ∧ x.2.1 = t))).map (fun x => x.2.2)

theorem sendAll_steps (sends : List (Fin P × Nat × Msg)) : ∀ (s : State P α) (root : Fin P) (k : Prog P α),
    s.progs root = (sendAll sends >>= fun _ => k) →
    Steps bf s ⟨Function.update s.progs root k, fun a b t => s.chan a b t ++ (if a = root then pick sends b t else []), s.ctx⟩ := by
  induction sends with
  | nil =>
    intro s root k h
    have : (⟨Function.update s.progs root k, fun a b t => s.chan a b t ++ (if a = root then pick [] b t else []), s.ctx⟩ : State P α) = s := by
      refine State.ext' ?_ ?_ rfl
      · funext r
        by_cases e : r = root
        · subst e; simp [h, sendAll]
        · simp [e]
      · funext a b t
        simp [pick]
    rw [this]
    exact .refl
  | cons x xs ih =>
    intro s root k h
    have step : Step bf s ⟨Function.update s.progs root (sendAll xs >>= fun _ => k), fun a b t =>
        if a = root ∧ b = x.1 ∧ t = x.2.1 then s.chan a b t ++ [x.2.2] else s.chan a b t, s.ctx⟩ :=
      .isend root x.1 x.2.1 x.2.2 (sendAll xs >>= fun _ => k) (by rw [h]; rfl) rfl (fun a b t => rfl) rfl
    refine Relation.ReflTransGen.head step ?_
    have := ih ⟨Function.update s.progs root (sendAll xs >>= fun _ => k), fun a b t =>
        if a = root ∧ b = x.1 ∧ t = x.2.1 then s.chan a b t ++ [x.2.2] else s.chan a b t, s.ctx⟩ root k (by simp)
    refine Steps.to this (State.ext' ?_ ?_ rfl)
    · simp
    · funext a b t
      by_cases ha : a = root
      · subst ha
        by_cases hb : b = x.1 ∧ t = x.2.1
        · obtain ⟨rfl, rfl⟩ := hb
          simp [pick]
        · have : ¬ (x.1 = b ∧ x.2.1 = t) := fun h => hb ⟨h.1.symm, h.2.symm⟩
          simp [pick, hb, this]
      · simp [ha]

/-- The program receives the messages from `src` in this order, with the given result. -/
inductive Recvs (src : Fin P) : Prog P α → List (Nat × Msg) → α → Prop
  | ret (a : α) : Recvs src (.ret a) [] a
  | recv (t : Nat) (τ : Type) (k : List τ → Prog P α) (m : List τ) (ms : List (Nat × Msg)) (a : α) (h : Recvs src (k m) ms a) :
      Recvs src (.recv src t τ k) ((t, ⟨τ, m⟩) :: ms) a

/-- The messages with tag `t`. -/
def tagged (ms : List (Nat × Msg)) (t : Nat) : List Msg := (ms.filter (fun x => decide (x.1 = t))).map Prod.snd

theorem recvs_steps {src : Fin P} {p : Prog P α} {ms : List (Nat × Msg)} {a : α} (h : Recvs src p ms a) :
    ∀ (s : State P β) (r : Fin P) (f : α → Prog P β), s.progs r = p >>= f → (∀ t, s.chan src r t = tagged ms t) →
    Steps bf s ⟨Function.update s.progs r (f a), fun x b t => if x = src ∧ b = r then [] else s.chan x b t, s.ctx⟩ := by
  induction h with
  | ret a =>
    intro s r f hs hc
    have : (⟨Function.update s.progs r (f a), fun x b t => if x = src ∧ b = r then [] else s.chan x b t, s.ctx⟩ : State P β) = s := by
      refine State.ext' ?_ ?_ rfl
      · funext q
        by_cases e : q = r
        · subst e; simp [hs]
        · simp [e]
      · funext x b t
        by_cases e : x = src ∧ b = r
        · obtain ⟨rfl, rfl⟩ := e
          simp [hc, tagged]
        · simp [e]
    rw [this]
    exact .refl
  | recv t τ k m ms a h ih =>
    intro s r f hs hc
    have step : Step bf s ⟨Function.update s.progs r (k m >>= f), fun x b t' =>
        if x = src ∧ b = r ∧ t' = t then tagged ms t else s.chan x b t', s.ctx⟩ :=
      .recv r src t τ (fun m => k m >>= f) m (tagged ms t) (by rw [hs]; rfl) (by rw [hc]; simp [tagged]) rfl (fun x b t => rfl) rfl
    refine Relation.ReflTransGen.head step ?_
    have := ih ⟨Function.update s.progs r (k m >>= f), fun x b t' =>
        if x = src ∧ b = r ∧ t' = t then tagged ms t else s.chan x b t', s.ctx⟩ r f (by simp) (fun t' => by
          by_cases e : t' = t
          · subst e; simp
          · have : ¬ t = t' := fun h => e h.symm
            simp [e, hc, tagged, this])
    refine Steps.to this (State.ext' ?_ ?_ rfl)
    · simp
    · funext x b t'
      by_cases e : x = src ∧ b = r
      · simp [e]
      · have : ¬ (x = src ∧ b = r ∧ t' = t) := fun h => e ⟨h.1, h.2.1⟩
        simp [e, this]

theorem recvs_all {src : Fin P} {p : Fin P → Prog P α} {ms : Fin P → List (Nat × Msg)} {a : Fin P → α} {f : Fin P → α → Prog P β}
    (h : ∀ r, Recvs src (p r) (ms r) (a r)) (l : List (Fin P)) :
    ∀ (s : State P β), l.Nodup → (∀ r ∈ l, s.progs r = p r >>= f r) → (∀ r ∈ l, ∀ t, s.chan src r t = tagged (ms r) t) →
    Steps bf s ⟨fun q => if q ∈ l then f q (a q) else s.progs q, fun x b t => if x = src ∧ b ∈ l then [] else s.chan x b t, s.ctx⟩ := by
  induction l with
  | nil =>
    intro s _ _ _
    have : (⟨fun q => if q ∈ [] then f q (a q) else s.progs q, fun x b t => if x = src ∧ b ∈ [] then [] else s.chan x b t, s.ctx⟩ : State P β) = s :=
      State.ext' (by simp) (by simp) rfl
    rw [this]
    exact .refl
  | cons r l ih =>
    intro s hn hs hc
    refine (recvs_steps (h r) s r (f r) (hs r (by simp)) (hc r (by simp))).trans ?_
    have hrl := (List.nodup_cons.1 hn).1
    have := ih ⟨Function.update s.progs r (f r (a r)), fun x b t => if x = src ∧ b = r then [] else s.chan x b t, s.ctx⟩
      (List.nodup_cons.1 hn).2 (fun q hq => by
        have : q ≠ r := fun e => hrl (e ▸ hq)
        simp [this, hs q (by simp [hq])]) (fun q hq t => by
        have : q ≠ r := fun e => hrl (e ▸ hq)
        simp [this, hc q (by simp [hq])])
    refine Steps.to this (State.ext' ?_ ?_ rfl)
    · funext q
      by_cases e : q = r
      · subst e; simp [hrl]
      · simp [e]
    · funext x b t
      by_cases e : b = r
      · subst e; simp [hrl]
      · simp [e]

/-- The messages for one process, in the order in which they are sent. -/
def sentTo (sends : List (Fin P × Nat × Msg)) (r : Fin P) : List (Nat × Msg) :=
  (sends.filter (fun x => decide (x.1 = r))).map Prod.snd

theorem pick_eq (sends : List (Fin P × Nat × Msg)) (r : Fin P) (t : Nat) : pick sends r t = tagged (sentTo sends r) t := by
  unfold pick tagged sentTo
  rw [List.filter_map, List.map_map, List.filter_filter]
  congr 1
  apply List.filter_congr
  intro x _
  simp [and_comm]

/-- The root sends to all processes (also to itself), all receive, and the root waits for its sends. -/
theorem runs_sendAll {root : Fin P} {sends : List (Fin P × Nat × Msg)} {p : Fin P → Prog P α} {res : Fin P → α}
    (h : ∀ r, Recvs root (p r) (sentTo sends r) (res r)) :
    Runs (fun r => (if r = root then sendAll sends else .ret ()) >>= fun _ => p r >>= fun a =>
      (if r = root then waitSends else .ret ()) >>= fun _ => Prog.ret a) res := by
  intro bf ctx
  refine ⟨ctx, ?_⟩
  obtain ⟨f, hf⟩ : ∃ f : Fin P → α → Prog P α, f = fun r a => (if r = root then waitSends else .ret ()) >>= fun _ => Prog.ret a := ⟨_, rfl⟩
  have s1 := sendAll_steps (bf := bf) sends (start ctx (fun r => (if r = root then sendAll sends else .ret ()) >>= fun _ => p r >>= f r)) root
    (p root >>= f root) (by simp [start])
  have s2 := recvs_all (bf := bf) (f := f) h (List.finRange P) ⟨Function.update
      (start ctx (fun r => (if r = root then sendAll sends else .ret ()) >>= fun _ => p r >>= f r)).progs root (p root >>= f root),
      fun a b t => (start ctx (fun r => (if r = root then sendAll sends else .ret ()) >>= fun _ => p r >>= f r)).chan a b t ++
        (if a = root then pick sends b t else []), ctx⟩ (List.nodup_finRange P) (fun r _ => by
      by_cases e : r = root
      · subst e; simp
      · simp [e, start]) (fun r _ t => by simp [start, pick_eq])
  have s3 : Step bf (⟨fun q => f q (res q), fun _ _ _ => [], ctx⟩ : State P α) (start ctx (fun r => .ret (res r))) := by
    refine .waitall root (.ret (res root)) (by simp [hf, waitSends]) (fun d t m hm => by simp at hm) ?_ rfl rfl
    funext q
    by_cases e : q = root
    · subst e; simp [start]
    · simp [start, e, hf]
  have s4 := Steps.to (s1.trans s2) (u := ⟨fun q => f q (res q), fun _ _ _ => [], ctx⟩) (State.ext' (by simp) (by
    funext x b t
    by_cases e : x = root <;> simp [start, e]) rfl)
  have s5 := s4.tail s3
  rw [hf] at s5
  exact s5

end HBT.Spmd
