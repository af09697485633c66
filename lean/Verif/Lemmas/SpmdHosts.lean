import Verif.Lemmas.SpmdMpi
import Verif.Lemmas.SpmdSend
import Verif.Model.SpmdHosts
import Verif.Lemmas.HaloExchange
set_option linter.unusedSectionVars false
/-!
# The programs of the host assignment do what `Model/Hosts.lean` says
-/
namespace HBT.Spmd
open HBT HBT.Model
variable {P : Nat} {K D α τ : Type}

/-! ## `MPI_MAXLOC` -/

theorem maxloc_assoc (a b c : Int × Fin P) : maxloc (maxloc a b) c = maxloc a (maxloc b c) := by
  obtain ⟨a, i⟩ := a
  obtain ⟨b, j⟩ := b
  obtain ⟨c, k⟩ := c
  have l : ∀ {x y : Int} {i j : Fin P}, x < y → maxloc (x, i) (y, j) = (y, j) := fun h => if_pos h
  have g : ∀ {x y : Int} {i j : Fin P}, y < x → maxloc (x, i) (y, j) = (x, i) := fun h => by
    unfold maxloc
    simp only
    rw [if_neg (by omega), if_pos h]
  have e : ∀ {x : Int} {i j : Fin P}, maxloc (x, i) (x, j) = (x, min i j) := by
    unfold maxloc
    simp
  rcases lt_trichotomy a b with h | h | h <;> rcases lt_trichotomy b c with h' | h' | h'
  · rw [l h, l h', l (h.trans h')]
  · subst h'; rw [l h, e, l h]
  · rw [l h, g h', l h]
  · subst h; rw [e, l h', l h', l h']
  · subst h h'; rw [e, e, e, e, min_assoc]
  · subst h; rw [e, g h', g h', e]
  · rw [g h, l h']
  · subst h'; rw [g h, e, g h, g h]
  · rw [g h, g h', g h, g (h'.trans h)]

theorem maxloc_comm (a b : Int × Fin P) : maxloc a b = maxloc b a := by
  unfold maxloc
  split_ifs
  · omega
  · rfl
  · rfl
  · exact Prod.ext (by simp; omega) (min_comm _ _)

theorem maxloc_self (a : Int × Fin P) : maxloc a a = a := by
  unfold maxloc
  simp

theorem foldl_maxloc_start (l : List (Int × Fin P)) (a b : Int × Fin P) : l.foldl maxloc (maxloc a b) = maxloc a (l.foldl maxloc b) := by
  induction l generalizing b with
  | nil => rfl
  | cons c l ih => rw [List.foldl_cons, List.foldl_cons, maxloc_assoc, ih]

theorem maxloc_absorb (l : List (Int × Fin P)) (b a : Int × Fin P) (h : a ∈ b :: l) : maxloc a (l.foldl maxloc b) = l.foldl maxloc b := by
  induction l generalizing b with
  | nil =>
    simp at h
    subst h
    exact maxloc_self a
  | cons c l ih =>
    rw [List.foldl_cons]
    rcases List.mem_cons.1 h with rfl | h
    · rw [foldl_maxloc_start, ← maxloc_assoc, maxloc_self]
    rcases List.mem_cons.1 h with rfl | h
    · rw [maxloc_comm b, foldl_maxloc_start, ← maxloc_assoc, maxloc_self]
    · exact ih _ (by simp [h])

theorem allMaxloc_eq (x : Fin P → Int) (root m : Fin P) (rest : List (Fin P)) (h : List.finRange P = m :: rest) :
    allMaxloc x root = (rest.map (fun q => (x q, q))).foldl maxloc (x m, m) := by
  unfold allMaxloc
  rw [List.ofFn_eq_map, h, List.map_cons, List.foldl_cons, foldl_maxloc_start]
  apply maxloc_absorb
  have : root ∈ m :: rest := h ▸ List.mem_finRange root
  have := List.mem_map_of_mem (f := fun q => (x q, q)) this
  simpa using this

/-! ## `FindOtherHosts` -/

theorem foldl_zipWith_map {σ : Type} (op : τ → τ → τ) (chunk : List σ) (f : σ → α → τ) (rest : List α) (h : σ → τ) :
    (rest.map (fun q => chunk.map (fun s => f s q))).foldl (List.zipWith op) (chunk.map h)
      = chunk.map (fun s => (rest.map (f s)).foldl op (h s)) := by
  induction rest generalizing h with
  | nil => rfl
  | cons q rest ih =>
    rw [List.map_cons, List.foldl_cons]
    have : List.zipWith op (chunk.map h) (chunk.map (fun s => f s q)) = chunk.map (fun s => op (h s) (f s q)) := by
      rw [List.zipWith_map, List.zipWith_self]
    rw [this, ih]
    rfl

/-- The id of the first particle. -/
def trackId1 (s : Sub K D) : Int := (s.particles.head?.map Particle.id).getD 0

theorem globalHosts_inv {hash : Fin P → Int → Int} {inSnap : Fin P → Int → Bool} {root : Fin P} (chunk : List (Sub K D)) :
    ∀ {g}, globalHosts hash inSnap root chunk = .ok g →
    trackParticles chunk = .ok (chunk.map trackId1) ∧ g = chunk.map (fun s =>
      allMaxloc (fun q => if q = root then s.hostHaloId else getLocalHostId (hash q) (inSnap q) (trackId1 s)) root) := by
  induction chunk with
  | nil => intro g h; cases h; exact ⟨rfl, rfl⟩
  | cons s chunk ih =>
    intro g h
    rw [globalHosts] at h
    obtain ⟨x, h1, h⟩ := bind_eq_ok h
    obtain ⟨gs, h2, h⟩ := bind_eq_ok h
    cases h
    unfold globalHost at h1
    obtain ⟨p, h3, h1⟩ := bind_eq_ok h1
    have e : trackId1 s = p.id := by
      unfold Outcome.get at h3
      unfold trackId1
      cases e : s.particles with
      | nil => rw [e] at h3; simp at h3
      | cons a l => rw [e] at h3; simp at h3; rw [← h3]; rfl
    obtain ⟨i1, i2⟩ := ih h2
    injection h1 with h1
    constructor
    · rw [trackParticles, h3, Outcome.bind_ok, i1, Outcome.bind_ok, List.map_cons, e]
    · rw [List.map_cons, ← i2, ← h1, e]

theorem findHosts_runs {hash : Fin P → Int → Int} {inSnap : Fin P → Int → Bool} {root : Fin P} {chunk : List (Sub K D)}
    {g : List (Int × Fin P)} (h : globalHosts hash inSnap root chunk = .ok g) :
    Runs (fun r => findHosts (hash r) (inSnap r) root r (if r = root then chunk else [])) (fun _ => g) := by
  obtain ⟨h1, h2⟩ := globalHosts_inv chunk h
  unfold findHosts
  refine Runs.bind runs_bcast1 ?_
  simp only [if_true]
  refine Runs.lift_bind (a := fun r => if r = root then chunk.map trackId1 else List.replicate chunk.length 0) (fun r => ?_) ?_
  · unfold trackBuffer
    by_cases e : r = root
    · simp [e, h1]
    · simp [e]
  refine Runs.bind (runs_bcast (fun r => by by_cases e : r = root <;> simp [e])) ?_
  simp only [if_true]
  obtain ⟨f, hf⟩ : ∃ f : Sub K D → Fin P → Int × Fin P, f = fun s q =>
    ((if q = root then s.hostHaloId else getLocalHostId (hash q) (inSnap q) (trackId1 s)), q) := ⟨_, rfl⟩
  have hp : ∀ r, hostPairs (hash r) (inSnap r) root r (if r = root then chunk else []) (chunk.map trackId1) = chunk.map (fun s => f s r) := by
    intro r
    unfold hostPairs
    rw [hf]
    by_cases e : r = root
    · simp [e]
    · simp [e, Function.comp_def]
  simp only [hp]
  cases hfr : List.finRange P with
  | nil =>
    have : P = 0 := by simpa using congrArg List.length hfr
    exact Runs.none this _ _
  | cons m rest =>
    have hb : List.ofFn (fun r => chunk.map (fun s => f s r)) = chunk.map (fun s => f s m) :: rest.map (fun r => chunk.map (fun s => f s r)) := by
      rw [List.ofFn_eq_map, hfr, List.map_cons]
    have := runs_allreduce (op := maxloc) (count := chunk.length) (buf := fun r => chunk.map (fun s => f s r)) (fun r => by simp) hb
    rw [foldl_zipWith_map] at this
    have e : chunk.map (fun s => (rest.map (f s)).foldl maxloc (f s m)) = g := by
      rw [h2]
      apply List.map_congr_left
      intro s _
      rw [allMaxloc_eq _ root m rest hfr, hf]
    rw [e] at this
    exact this

theorem flatMap_own {l : List (Fin P)} (hn : l.Nodup) {h : Fin P → List (Fin P × Nat × Msg)} (hh : ∀ q, ∀ x ∈ h q, x.1 = q) (r : Fin P) :
    (l.flatMap h).filter (fun x => decide (x.1 = r)) = if r ∈ l then h r else [] := by
  induction l with
  | nil => simp
  | cons q l ih =>
    rw [List.flatMap_cons, List.filter_append, ih (List.nodup_cons.1 hn).2]
    by_cases e : q = r
    · subst e
      have : (h q).filter (fun x => decide (x.1 = q)) = h q := List.filter_eq_self.2 (fun x hx => by simpa using hh q x hx)
      simp [this, (List.nodup_cons.1 hn).1]
    · have : (h q).filter (fun x => decide (x.1 = r)) = [] :=
        List.filter_eq_nil_iff.2 (fun x hx => by rw [hh q x hx]; simpa using e)
      have e' : ¬ r = q := fun h => e h.symm
      simp [this, e']

theorem sentTo_hostSends (chunk : List (Sub K D)) (g : List (Int × Fin P)) (r : Fin P) :
    sentTo (hostSends chunk g) r = (messagesFor (packFor chunk g r) r).map Prod.snd := by
  unfold sentTo hostSends
  rw [flatMap_own (List.nodup_finRange P) (fun q x hx => by
    simp [messagesFor] at hx
    rcases hx with rfl | rfl | rfl | rfl <;> rfl), if_pos (List.mem_finRange r)]

theorem recvSubs_recvs (root r : Fin P) (subs : List (Sub K D)) :
    Recvs root (recvSubs root) ((messagesFor subs r).map Prod.snd) (subs.map (fun s => (s.particles, s.nested))) := by
  unfold recvSubs messagesFor recvAny recvCount
  simp only [recv_bind, ret_bind, List.map_cons, List.map_nil]
  refine .recv 0 Nat _ _ _ _ ?_
  refine .recv 1 (Particle D) _ _ _ _ ?_
  rw [if_pos (by rw [List.length_flatten, List.map_map]; rfl)]
  simp only [ret_bind]
  have f1 := fillHalos_ok (subs.map Sub.particles)
  rw [List.map_map] at f1
  have f2 := fillHalos_ok (subs.map Sub.nested)
  rw [List.map_map] at f2
  show Recvs root (lift (fillHalos (subs.map (List.length ∘ Sub.particles)) _) >>= _) _ _
  rw [f1]
  refine .recv 0 Nat _ _ _ _ ?_
  rw [if_pos (by simp)]
  refine .recv 1 Int _ _ _ _ ?_
  rw [if_pos (by rw [List.length_flatten, List.map_map]; rfl)]
  show Recvs root (lift (fillHalos (subs.map (List.length ∘ Sub.nested)) _) >>= _) _ _
  rw [f2]
  show Recvs root (.ret _) _ _
  rw [List.zip_map', ]
  exact .ret _

theorem moveSubs_runs (root : Fin P) (chunk : List (Sub K D)) (g : List (Int × Fin P)) :
    Runs (fun r => moveSubs root r (if r = root then chunk else []) g)
      (fun r => (packFor chunk g r).map (fun s => (s.particles, s.nested))) := by
  have := runs_sendAll (root := root) (sends := hostSends chunk g) (p := fun _ => recvSubs root)
    (res := fun r => (packFor chunk g r).map (fun s => (s.particles, s.nested))) (fun r => by
      rw [sentTo_hostSends]
      exact recvSubs_recvs root r _)
  refine this.congr (fun r => ?_)
  unfold moveSubs
  by_cases e : r = root
  · simp [e]
  · simp [e]

theorem findOther_runs {hash : Fin P → Int → Int} {inSnap : Fin P → Int → Bool} {root : Fin P} {chunk : List (Sub K D)}
    {loc res : Fin P → List (Sub K D)} (h : findOtherHosts hash inSnap root chunk loc = .ok res) :
    Runs (fun r => findOther (hash r) (inSnap r) root r (if r = root then chunk else []) (loc r)) res := by
  rw [findOtherHosts] at h
  obtain ⟨g, h1, h⟩ := bind_eq_ok h
  obtain ⟨tmp, h2, h⟩ := bind_eq_ok h
  have hl : ∀ r, (packFor chunk g r).length = ((List.zip chunk g).filter (fun x => decide (x.2.2 = r))).length := fun r => by
    simp [packFor]
  have h3 : ∀ r : Fin P, ∃ shells, (do let d ← disps (fun r => (packFor chunk g r).length) r; slice tmp d (packFor chunk g r).length) = Outcome.ok shells ∧
      res r = loc r ++ List.zipWith assemble shells ((packFor chunk g r).map (fun s => (s.particles, s.nested))) := by
    intro r
    have h := allRanks_inv h r
    obtain ⟨d, a1, h⟩ := bind_eq_ok h
    obtain ⟨shells, a2, h⟩ := bind_eq_ok h
    refine ⟨shells, ?_, ?_⟩
    · simp only [hl]
      rw [a1, Outcome.bind_ok, a2]
    · injection h with h
      rw [← h]
      unfold packFor
      rw [List.map_map]
      rfl
  choose shells h4 h5 using h3
  unfold findOther
  refine Runs.bind (findHosts_runs h1) ?_
  refine Runs.bind (moveSubs_runs root chunk g) ?_
  refine Runs.lift_bind (a := fun r => if r = root then shells else fun _ => []) (fun r => ?_) ?_
  · unfold shellBlocks
    by_cases e : r = root
    · simp only [e, decide_true, if_true]
      rw [h2, Outcome.bind_ok]
      exact allRanks_ok _ _ h4
    · simp [e]
  refine Runs.bind (runs_scatterv (fun r => ?_)) ?_
  · rw [if_pos rfl, List.length_map]
    obtain ⟨d, _, h6⟩ := bind_eq_ok (h4 r)
    exact (slice_length h6).symm
  · refine (Runs.ret res).congr (fun r => ?_)
    rw [if_pos rfl, h5]

/-! ## The chunks and the roots -/

theorem scatterChunks_runs {hash : Fin P → Int → Int} {inSnap : Fin P → Int → Bool} {root : Fin P} {subs : List (Sub K D)}
    (bs : List (Nat × Nat)) : ∀ {fuel : Nat} {loc res : Fin P → List (Sub K D)}, bs.length < fuel →
    scatterChunks hash inSnap root subs bs loc = .ok res →
    Runs (fun r => if r = root then rootChunks (hash r) (inSnap r) root subs bs (loc r)
      else otherChunks (hash r) (inSnap r) root r fuel (loc r)) res := by
  induction bs with
  | nil =>
    intro fuel loc res hfu h
    cases h
    obtain ⟨fuel, rfl⟩ : ∃ f, fuel = f + 1 := ⟨fuel - 1, by simp at hfu; omega⟩
    have := Runs.bind (f := fun r (s : Int) => if r = root then Prog.ret (loc r) else if s ≠ 0 then .ret (loc r) else
      findOther (hash r) (inSnap r) root r [] (loc r) >>= otherChunks (hash r) (inSnap r) root r fuel) (b := loc)
      (runs_bcast1 (root := root) (x := fun r => if r = root then (1 : Int) else 0)) ((Runs.ret loc).congr (fun r => by simp))
    refine this.congr (fun r => ?_)
    by_cases e : r = root
    · simp only [e, if_true]; rfl
    · simp only [e, if_false]; rfl
  | cons b bs ih =>
    intro fuel loc res hfu h
    obtain ⟨fuel, rfl⟩ : ∃ f, fuel = f + 1 := ⟨fuel - 1, by simp at hfu; omega⟩
    rw [scatterChunks] at h
    obtain ⟨chunk, h1, h⟩ := bind_eq_ok h
    obtain ⟨loc', h2, h⟩ := bind_eq_ok h
    have := Runs.bind (f := fun r (s : Int) => if r = root then lift (slice subs b.1 (b.2 - b.1)) >>= fun chunk =>
        findOther (hash r) (inSnap r) root root chunk (loc r) >>= fun l => rootChunks (hash r) (inSnap r) root subs bs l
      else if s ≠ 0 then .ret (loc r) else
        findOther (hash r) (inSnap r) root r [] (loc r) >>= fun l => otherChunks (hash r) (inSnap r) root r fuel l) (b := res)
      (runs_bcast1 (root := root) (x := fun _ => (0 : Int))) ((Runs.bind (f := fun r l => if r = root then rootChunks (hash r) (inSnap r) root subs bs l else otherChunks (hash r) (inSnap r) root r fuel l)
        (findOther_runs h2) (ih (by simp at hfu; omega) h)).congr (fun r => by
        by_cases e : r = root
        · subst e; simp [h1]
        · simp [e]))
    refine this.congr (fun r => ?_)
    by_cases e : r = root
    · simp only [e, if_true]; rfl
    · simp only [e, if_false]; rfl

theorem scatterRoots_runs {maxChunk : Nat} {hash : Fin P → Int → Int} {inSnap : Fin P → Int → Bool} {keep : Fin P → List (Sub K D)} {fuel : Nat}
    (hf : ∀ r, (chunkBounds maxChunk ((keep r).map (fun s => s.particles.length)) 0 0 0).length < fuel) (roots : List (Fin P)) :
    ∀ {loc res : Fin P → List (Sub K D)}, scatterRoots maxChunk hash inSnap keep roots loc = .ok res →
    Runs (fun r => findRoots fuel maxChunk (hash r) (inSnap r) r (keep r) roots (loc r)) res := by
  induction roots with
  | nil => intro loc res h; cases h; exact Runs.ret _
  | cons root roots ih =>
    intro loc res h
    rw [scatterRoots] at h
    obtain ⟨loc', h1, h⟩ := bind_eq_ok h
    have := (scatterChunks_runs _ (hf root) h1).bind (ih h)
    refine this.congr (fun r => ?_)
    unfold findRoots findSafely
    by_cases e : r = root
    · simp only [e, if_true]
    · simp only [e, if_false]

theorem chunkBounds_length (maxChunk : Nat) (l : List Nat) : ∀ i off c, (chunkBounds maxChunk l i off c).length ≤ l.length + 1 := by
  induction l with
  | nil => intro i off c; unfold chunkBounds; split <;> simp
  | cons n l ih =>
    intro i off c
    unfold chunkBounds
    simp only
    split
    · rw [List.length_append]
      have := ih (i + 1) i n
      split <;> simp <;> omega
    · have := ih (i + 1) off (c + n)
      simp; omega

theorem findLocalHosts_length (hash : Int → Int) (inSnap : Int → Bool) (subs : List (Sub K D)) :
    (findLocalHosts hash inSnap subs).1.length ≤ subs.length := by
  induction subs with
  | nil => simp [findLocalHosts]
  | cons s subs ih =>
    unfold findLocalHosts
    simp only
    split <;> simp <;> omega

/-- The loops of the processes that are not the root need as many iterations as the root has chunks, which are not more than its subhaloes. -/
theorem assign_runs {maxChunk : Nat} {hash : Fin P → Int → Int} {inSnap : Fin P → Int → Bool} {subs res : Fin P → List (Sub K D)} {fuel : Nat}
    (hf : ∀ r, (subs r).length + 1 < fuel) (h : assignHosts maxChunk hash inSnap subs = .ok res) :
    Runs (fun r => assign fuel maxChunk (hash r) (inSnap r) r (subs r)) res := by
  unfold assignHosts at h
  refine scatterRoots_runs (fun r => ?_) (List.finRange P) h
  have h1 := chunkBounds_length maxChunk ((findLocalHosts (hash r) (inSnap r) (subs r)).1.map (fun s => s.particles.length)) 0 0 0
  have h2 := findLocalHosts_length (hash r) (inSnap r) (subs r)
  rw [List.length_map] at h1
  have := hf r
  omega

end HBT.Spmd
