import Verif.Model.StoredEnergies
import Verif.Props.OptionalOutput
import Verif.Lemmas.MergeAll
/-!
# C79, whole snapshots: the energies through `RefineParticles` and `MergeSubhalos`
-/
namespace HBT.Props
open HBT HBT.Model HBT.Spec HBT.Spec.Forest
variable {K D E : Type}

/-- The energies `en` beside the subhalo `s` are those of one call of `Unbind` in snapshot `snap` (with what `env` gives it), for particles that start with `own`, and the bound particles
of `s` are the first of the result of that call, in its order. -/
def FromUnbinding [LT E] [DecidableLT E] [Zero E] [MassSum K] (cfg : UnbindConfig) (env : UnbindEnv K D E) (snap : Int) (own : List (Particle D)) (s : Sub K D) (en : List E) : Prop :=
  ∃ extra u s0, u.particles = own ++ extra ∧ unbindStored cfg env (u.particles.length + 1) snap u = .ok (s0, en) ∧ s.nbound ≤ s0.nbound ∧
    s.particles.take s.nbound = s0.particles.take s.nbound

theorem onSubs_set {f : List (Sub K D) → Outcome (List (Sub K D))} {st : List (Sub K D × List E)} {i : Nat} {s s' : Sub K D} {en : List E} (h : st[i]? = some (s, en))
    (e : f (st.map Prod.fst) = .ok ((st.map Prod.fst).set i s')) : onSubs f st = .ok (st.set i (s', en)) := by
  rw [onSubs, e, Outcome.bind_ok]
  congr 1
  refine List.ext_getElem (by simp) fun k h1 h2 => ?_
  obtain ⟨hi, hv⟩ := List.getElem?_eq_some_iff.1 h
  by_cases hk : i = k
  · subst hk
    simp [hv]
  · simp [List.getElem_set, hk]

theorem onSubs_ok {f : List (Sub K D) → Outcome (List (Sub K D))} {st : List (Sub K D × List E)} {subs : List (Sub K D)} (e : f (st.map Prod.fst) = .ok subs)
    (hl : subs.length = st.length) : ∃ st', onSubs f st = .ok st' ∧ st'.map Prod.fst = subs ∧ st'.map Prod.snd = st.map Prod.snd := by
  refine ⟨_, by rw [onSubs, e, Outcome.bind_ok], List.map_fst_zip (by simp [hl]), List.map_snd_zip (by simp [hl])⟩

theorem fst_some {st : List (Sub K D × List E)} {i : Nat} {s : Sub K D} {en : List E} (h : st[i]? = some (s, en)) : (st.map Prod.fst)[i]? = some s := by
  rw [List.getElem?_map, h]
  rfl

theorem map_fst_set (st : List (Sub K D × List E)) (i : Nat) (s : Sub K D) (en : List E) : (st.set i (s, en)).map Prod.fst = (st.map Prod.fst).set i s := by
  rw [List.map_set]

/-- What happens to a subhalo `u` that gets the particles `extra`, with its new energies. -/
def NodeStored [LT E] [DecidableLT E] [Zero E] [MassSum K] (cfg : UnbindConfig) (env : UnbindEnv K D E) (snap : Int)
    (u u' : Sub K D) (en : List E) (extra : List (Particle D)) : Prop :=
  if u.nbound ≤ 1 then ∃ v, unbindStored cfg env (u.particles.length + 1) snap u = .ok (v, en) ∧ u' = v.withParticles (u.particles ++ extra)
  else unbindStored cfg env ((u.particles ++ extra).length + 1) snap (u.withParticles (u.particles ++ extra)) = .ok (u', en)

section
variable [LinearOrder E] [Zero E] [MassSum K] {cfg : UnbindConfig} {env : Nat → UnbindEnv K D E}

theorem stored_exists (hok : RefineOk cfg env) (i : Nat) (snap : Int) (u : Sub K D) :
    ∃ u' en, unbindStored cfg (env i) (u.particles.length + 1) snap u = .ok (u', en) ∧ unbindFull cfg (env i) snap u = .ok u' := by
  obtain ⟨s', en, h1, h2, _⟩ := C79_energies (fuel := u.particles.length + 1) (snap := snap) (hok.env_ i) hok.prec hok.min u (Nat.lt_succ_self _)
  exact ⟨s', en, h1, h2⟩

theorem nodeStored_exists (hok : RefineOk cfg env) (i : Nat) (snap : Int) (u : Sub K D) (extra : List (Particle D)) :
    ∃ u' en, NodeStored cfg (env i) snap u u' en extra ∧ NodeRefined cfg (env i) snap u u' extra ∧ u'.nbound ≤ u'.particles.length := by
  obtain ⟨w, hw, _, _, hle⟩ := nodeRefined_exists hok i snap u extra
  unfold NodeStored
  by_cases hn : u.nbound ≤ 1
  · obtain ⟨v, en, h1, h2⟩ := stored_exists hok i snap u
    have hw' := hw
    unfold NodeRefined at hw'
    rw [if_pos hn, h2] at hw'
    obtain ⟨v', e, rfl⟩ := hw'
    cases e
    exact ⟨_, en, by rw [if_pos hn]; exact ⟨v, h1, rfl⟩, hw, hle⟩
  · obtain ⟨v, en, h1, h2⟩ := stored_exists hok i snap (u.withParticles (u.particles ++ extra))
    have hw' := hw
    unfold NodeRefined at hw'
    rw [if_neg hn, h2] at hw'
    cases hw'
    exact ⟨_, en, by rw [if_neg hn]; exact h1, hw, hle⟩

/-- The result of visiting the kids `f` of subhalo `p`. -/
structure KidsStored (cfg : UnbindConfig) (env : Nat → UnbindEnv K D E) (snap : Int) (f : Forest Nat) (p : Nat) (st st' : List (Sub K D × List E)) (extra : List (Particle D)) : Prop where
  length : st'.length = st.length
  frame : ∀ x, x ∉ f.nodes → x ≠ p → st'[x]? = st[x]?
  host : ∃ s en, st[p]? = some (s, en) ∧ st'[p]? = some (s.withParticles (s.particles ++ extra), en)
  each : ∀ x ∈ f.nodes, ∃ u en u' en' e, st[x]? = some (u, en) ∧ st'[x]? = some (u', en') ∧ NodeStored cfg (env x) snap u u' en' e ∧
    u'.nbound ≤ u'.particles.length

theorem visit_stored (hok : RefineOk cfg env) {snap : Int} {fuel a : Nat} {k : Forest Nat} {st : List (Sub K D × List E)} {u : Sub K D} {en : List E}
    (hu : st[a]? = some (u, en)) (hnest : u.nested = ints k.roots) (ha : a ∉ k.nodes)
    (hk : ∃ st1 extra, visitKids (recursiveUnbindStored cfg env snap fuel) (fun c => onSubs (feedHost a c)) (ints k.roots) st = .ok st1 ∧
      visitKids (recursiveUnbind cfg env snap fuel) (feedHost a) (ints k.roots) (st.map Prod.fst) = .ok (st1.map Prod.fst) ∧
      KidsStored cfg env snap k a st st1 extra) :
    ∃ st2 u' en' extra, recursiveUnbindStored cfg env snap (fuel + 1) a st = .ok st2 ∧
      recursiveUnbind cfg env snap (fuel + 1) a (st.map Prod.fst) = .ok (st2.map Prod.fst) ∧ st2.length = st.length ∧
      (∀ x, x ∉ k.nodes → x ≠ a → st2[x]? = st[x]?) ∧ st2[a]? = some (u', en') ∧ NodeStored cfg (env a) snap u u' en' extra ∧
      u'.nbound ≤ u'.particles.length ∧
      (∀ x ∈ k.nodes, ∃ v en v' en' e, st[x]? = some (v, en) ∧ st2[x]? = some (v', en') ∧ NodeStored cfg (env x) snap v v' en' e ∧
        v'.nbound ≤ v'.particles.length) := by
  obtain ⟨st1, extra, e1, e1', hk⟩ := hk
  obtain ⟨s, en0, hs, hs1⟩ := hk.host
  rw [hu] at hs
  cases hs
  have hal : a < st1.length := (List.getElem?_eq_some_iff.1 hs1).1
  obtain ⟨u', en', hr, hrr, hb⟩ := nodeStored_exists hok a snap u extra
  have hleave : unbindNodeStored cfg env snap (if u.nbound ≤ 1 then some u.particles else none) a st1 = .ok (st1.set a (u', en')) := by
    rw [unbindNodeStored, get_some hs1, Outcome.bind_ok]
    unfold NodeStored at hr
    by_cases hn : u.nbound ≤ 1
    · rw [if_pos hn] at hr ⊢
      obtain ⟨v, hv, rfl⟩ := hr
      have : (u.withParticles (u.particles ++ extra)).withParticles u.particles = u := rfl
      simp only [this]
      rw [hv, Outcome.bind_ok, Outcome.set_of_lt hal]
      rfl
    · rw [if_neg hn] at hr ⊢
      simp only [Sub.withParticles_particles]
      rw [hr, Outcome.bind_ok, Outcome.set_of_lt hal]
  have hleave' : unbindNode cfg env snap (if u.nbound ≤ 1 then some u.particles else none) a (st1.map Prod.fst) = .ok ((st1.map Prod.fst).set a u') := by
    have hal' : a < (st1.map Prod.fst).length := by simpa using hal
    rw [unbindNode, get_some (fst_some hs1), Outcome.bind_ok]
    unfold NodeRefined at hrr
    by_cases hn : u.nbound ≤ 1
    · rw [if_pos hn] at hrr ⊢
      obtain ⟨v, hv, rfl⟩ := hrr
      have : (u.withParticles (u.particles ++ extra)).withParticles u.particles = u := rfl
      simp only [this]
      rw [hv, Outcome.bind_ok, Outcome.set_of_lt hal']
      rfl
    · rw [if_neg hn] at hrr ⊢
      simp only
      rw [hrr, Outcome.bind_ok, Outcome.set_of_lt hal']
  refine ⟨st1.set a (u', en'), u', en', extra, ?_, ?_, by rw [List.length_set, hk.length], ?_, List.getElem?_set_self hal, hr, hb, ?_⟩
  · have hun : recursiveUnbindStored cfg env snap (fuel + 1) a st = (do
        let loc ← backupOrphan a (st.map Prod.fst)
        let ks ← (do let s ← Outcome.get st a; Outcome.ok s.1.nested)
        let st ← visitKids (recursiveUnbindStored cfg env snap fuel) (fun c => onSubs (feedHost a c)) ks st
        unbindNodeStored cfg env snap loc a st) := rfl
    rw [hun, backupOrphan, get_some (fst_some hu), get_some hu, Outcome.bind_ok, Outcome.bind_ok, Outcome.bind_ok, Outcome.bind_ok,
      hnest, e1, Outcome.bind_ok, hleave]
  · have hun : recursiveUnbind cfg env snap (fuel + 1) a (st.map Prod.fst) = (do
        let loc ← backupOrphan a (st.map Prod.fst)
        let ks ← nestOf a (st.map Prod.fst)
        let st ← visitKids (recursiveUnbind cfg env snap fuel) (feedHost a) ks (st.map Prod.fst)
        unbindNode cfg env snap loc a st) := rfl
    rw [hun, backupOrphan, nestOf, get_some (fst_some hu), Outcome.bind_ok, Outcome.bind_ok, Outcome.bind_ok, Outcome.bind_ok,
      hnest, e1', Outcome.bind_ok, hleave', map_fst_set]
  · intro x hx hxa
    rw [List.getElem?_set_ne (Ne.symm hxa), hk.frame x hx hxa]
  · intro x hx
    have hxa : a ≠ x := by rintro rfl; exact ha hx
    rw [List.getElem?_set_ne hxa]
    exact hk.each x hx

theorem idxKids_fst {st : List (Sub K D × List E)} {a : Nat} {l : List Nat} (h : idxKids (st.map Prod.fst) a l) : ∃ u en, st[a]? = some (u, en) ∧ u.nested = ints l := by
  obtain ⟨u, hu, hn⟩ := h
  rw [List.getElem?_map] at hu
  cases hx : st[a]? with
  | none => rw [hx] at hu; cases hu
  | some p =>
    rw [hx] at hu
    cases hu
    exact ⟨p.1, p.2, rfl, hn⟩

theorem kids_stored (hok : RefineOk cfg env) (snap : Int) : ∀ (f : Forest Nat) (fuel p : Nat) (st : List (Sub K D × List E)),
    f.height ≤ fuel → f.Shows (idxKids (st.map Prod.fst)) → f.nodes.Nodup → p ∉ f.nodes → p < st.length →
    ∃ st' extra, visitKids (recursiveUnbindStored cfg env snap fuel) (fun c => onSubs (feedHost p c)) (ints f.roots) st = .ok st' ∧
      visitKids (recursiveUnbind cfg env snap fuel) (feedHost p) (ints f.roots) (st.map Prod.fst) = .ok (st'.map Prod.fst) ∧
      KidsStored cfg env snap f p st st' extra
  | .nil, _, p, st, _, _, _, _, hp => by
    refine ⟨st, [], rfl, rfl, rfl, fun _ _ _ => rfl, ⟨st[p].1, st[p].2, List.getElem?_eq_getElem hp, ?_⟩, fun x hx => by simp at hx⟩
    rw [List.getElem?_eq_getElem hp, List.append_nil]
    rfl
  | .cons a k r, 0, _, _, hh, _, _, _, _ => by simp [Forest.height] at hh
  | .cons a k r, fuel + 1, p, st, hh, hs, hn, hp, hpl => by
    simp only [Forest.height] at hh
    obtain ⟨hka, hk, hr⟩ := hs
    obtain ⟨u, en, hu, hnest⟩ := idxKids_fst hka
    rw [nodes_cons, List.nodup_cons, List.nodup_append] at hn
    obtain ⟨han, hkn, hrn, hdis⟩ := hn
    rw [List.mem_append, not_or] at han
    rw [nodes_cons, List.mem_cons, List.mem_append, not_or, not_or] at hp
    have hal : a < st.length := (List.getElem?_eq_some_iff.1 hu).1
    obtain ⟨st2, u', en', ex1, e2, e2', l2, f2, hu2, hnr, hbu, hkid⟩ := visit_stored hok hu hnest han.1
      (kids_stored hok snap k fuel a st (by omega) hk hkn han.1 hal)
    have hp2 : st2[p]? = st[p]? := f2 p hp.2.1 hp.1
    have hsp : st[p]? = some (st[p].1, st[p].2) := List.getElem?_eq_getElem hpl
    have hpl2 : p < st2.length := by omega
    set s3 := st[p].1.withParticles (st[p].1.particles ++ u'.particles.drop u'.nbound) with hs3
    set st3 := st2.set p (s3, st[p].2) with hst3
    have e3' : feedHost p a (st2.map Prod.fst) = .ok ((st2.map Prod.fst).set p s3) := by
      rw [feedHost, get_some (fst_some hu2), Outcome.bind_ok, if_neg (by omega), get_some (fst_some (hp2.trans hsp)), Outcome.bind_ok,
        Outcome.set_of_lt (by simpa using hpl2)]
    have e3 : onSubs (feedHost p a) st2 = .ok st3 := onSubs_set (hp2.trans hsp) e3'
    have hne3 : ∀ x, x ≠ p → st3[x]? = st2[x]? := fun x hx => List.getElem?_set_ne (Ne.symm hx)
    have hp3 : st3[p]? = some (s3, st[p].2) := List.getElem?_set_self hpl2
    have hr3 : r.Shows (idxKids (st3.map Prod.fst)) := by
      refine shows_congr _ ?_ hr
      intro x hx l hl
      obtain ⟨v, ev, hv, hvl⟩ := idxKids_fst hl
      refine ⟨v, fst_some (en := ev) ?_, hvl⟩
      rw [hne3 x (by rintro rfl; exact hp.2.2 hx), f2 x (fun h => hdis x h x hx rfl) (by rintro rfl; exact han.2 hx), hv]
    obtain ⟨st4, ex2, e4, e4', h4⟩ := kids_stored hok snap r (fuel + 1) p st3 (by omega) hr3 hrn hp.2.2
      (by rw [hst3, List.length_set]; omega)
    obtain ⟨s, en4, hs, hs4⟩ := h4.host
    rw [hp3] at hs
    cases hs
    have hl3 : st3.length = st.length := by rw [hst3, List.length_set, l2]
    refine ⟨st4, u'.particles.drop u'.nbound ++ ex2, ?_, ?_, by rw [h4.length, hl3], ?_, ⟨_, _, hsp, ?_⟩, ?_⟩
    · rw [roots_cons, ints_cons, visitKids, if_neg (by omega), Int.toNat_natCast, e2, Outcome.bind_ok, e3, Outcome.bind_ok, e4]
    · rw [roots_cons, ints_cons, visitKids, if_neg (by omega), Int.toNat_natCast, e2', Outcome.bind_ok, e3', Outcome.bind_ok, ← map_fst_set _ _ _ st[p].2]
      exact e4'
    · intro x hx hxp
      rw [nodes_cons, List.mem_cons, List.mem_append, not_or, not_or] at hx
      rw [h4.frame x hx.2.2 hxp, hne3 x hxp, f2 x hx.2.1 hx.1]
    · rw [hs4]
      simp [Sub.withParticles, hs3]
    · intro x hx
      rw [nodes_cons, List.mem_cons, List.mem_append] at hx
      by_cases hxr : x ∈ r.nodes
      · obtain ⟨v, ev, v', ev', e, a1, a2, a3⟩ := h4.each x hxr
        refine ⟨v, ev, v', ev', e, ?_, a2, a3⟩
        rw [← a1, hne3 x (by rintro rfl; exact hp.2.2 hxr), f2 x (fun h => hdis x h x hxr rfl) (by rintro rfl; exact han.2 hxr)]
      · have hxp : x ≠ p := by
          rintro rfl
          rcases hx with h | h | h
          · exact hp.1 h
          · exact hp.2.1 h
          · exact hxr h
        rw [h4.frame x hxr hxp, hne3 x hxp]
        rcases hx with rfl | hx | hx
        · exact ⟨u, en, u', en', ex1, hu, hu2, hnr, hbu⟩
        · exact hkid x hx
        · exact absurd hx hxr

/-- One host. -/
theorem refineHostStored_ok (hok : RefineOk cfg env) (snap : Int) {st : List (Sub K D × List E)} {groups heads : List (List Nat)} {h : Nat} {g hs : List Nat}
    (hg : groups[h]? = some g) (hh : heads[h]? = some hs) (hf : GroupForest (st.map Prod.fst) g hs) (hn : g.Nodup)
    {fuel : Nat} (hfuel : st.length ≤ fuel) (hlt : ∀ i ∈ g, i < st.length) :
    ∃ out, refineHostStored cfg env snap fuel groups heads h st = .ok out ∧ refineHost cfg env snap fuel groups heads h (st.map Prod.fst) = .ok (out.map Prod.fst) ∧
      out.length = st.length ∧ (∀ x, x ∉ g → out[x]? = st[x]?) ∧
      (∀ x ∈ g, ∃ u en u' en' e l l', st[x]? = some (u, en) ∧ out[x]? = some (u'.withNested l', en') ∧ NodeStored cfg (env x) snap (u.withNested l) u' en' e ∧
        u'.nbound ≤ u'.particles.length) := by
  cases hf with
  | empty =>
    refine ⟨st, ?_, ?_, rfl, fun _ _ => rfl, fun x hx => by simp at hx⟩
    · rw [refineHostStored, get_some hg, Outcome.bind_ok]
    · rw [refineHost, get_some hg, Outcome.bind_ok]
  | tops c t k rest hsh hnodes =>
    have hnd : (Forest.cons c k rest).nodes.Nodup := hnodes.nodup_iff.2 hn
    obtain ⟨s, h1, h2, h3, h4⟩ := glue_ok hsh hnd
    obtain ⟨s', en, hs1, hs2⟩ := idxKids_fst hsh.1
    have hss : s' = s := by
      have := fst_some hs1
      rw [h1] at this
      exact (Option.some.inj this).symm
    subst hss
    have hcl : c < st.length := (List.getElem?_eq_some_iff.1 hs1).1
    set sg := s'.withNested (ints (k ++ rest).roots) with hsg
    set glued := st.set c (sg, en) with hglued
    have eg : onSubs (glue c (c :: rest.roots)) st = .ok glued := onSubs_set hs1 h3
    have hgf : glued.map Prod.fst = (st.map Prod.fst).set c sg := map_fst_set _ _ _ _
    have hgl : ∀ x, x ≠ c → glued[x]? = st[x]? := fun x hx => List.getElem?_set_ne (Ne.symm hx)
    have hgc : glued[c]? = some (sg, en) := List.getElem?_set_self hcl
    have hgll : glued.length = st.length := List.length_set
    have hnn : (c :: (k ++ rest).nodes).Perm (c :: t) := by
      rw [nodes_append]
      simpa [nodes_cons] using hnodes
    have hnd2 : (c :: (k ++ rest).nodes).Nodup := hnn.nodup_iff.2 hn
    rw [List.nodup_cons] at hnd2
    have hheight : (k ++ rest).height < fuel := by
      have h5 := height_le (k ++ rest)
      have h6 : (c :: t).length ≤ st.length := by
        have hsub : (c :: t).Subperm (List.range st.length) :=
          List.Nodup.subperm hn (fun i hi => List.mem_range.2 (hlt i hi))
        simpa using hsub.length_le
      have h7 := hnn.length_eq
      simp only [List.length_cons] at h6 h7
      omega
    obtain ⟨fuel', rfl⟩ : ∃ f, fuel = f + 1 := ⟨fuel - 1, by omega⟩
    obtain ⟨st2, u', en', ex, e2, e2', l2, f2, hu2, hnr, hbu, hkid⟩ := visit_stored hok (snap := snap) hgc rfl hnd2.1
      (kids_stored hok snap (k ++ rest) fuel' c glued (by omega) (by rw [hgf]; exact h4.2.1) hnd2.2 hnd2.1 (by omega))
    have hcl2 : c < st2.length := by omega
    set n' := u'.nested.take s'.nested.length with hn'
    have hun' : unglue c s'.nested.length (st2.map Prod.fst) = .ok ((st2.map Prod.fst).set c (u'.withNested n')) := by
      rw [unglue, get_some (fst_some hu2), Outcome.bind_ok, Outcome.set_of_lt (by simpa using hcl2)]
    have hun : onSubs (unglue c s'.nested.length) st2 = .ok (st2.set c (u'.withNested n', en')) := onSubs_set hu2 hun'
    refine ⟨st2.set c (u'.withNested n', en'), ?_, ?_, by rw [List.length_set, l2, hgll], ?_, ?_⟩
    · rw [refineHostStored, get_some hg, Outcome.bind_ok]
      simp only
      rw [get_some hs1, Outcome.bind_ok, get_some hh, Outcome.bind_ok, eg, Outcome.bind_ok, e2, Outcome.bind_ok, hun]
    · rw [refineHost, get_some hg, Outcome.bind_ok]
      simp only
      rw [get_some h1, Outcome.bind_ok, get_some hh, Outcome.bind_ok, h3, Outcome.bind_ok, ← hgf, e2', Outcome.bind_ok, hun', map_fst_set]
    · intro x hx
      have hxc : x ≠ c := fun h => hx (by simp [h])
      have hxk : x ∉ (k ++ rest).nodes := fun h => hx (hnn.mem_iff.1 (List.mem_cons_of_mem _ h))
      rw [List.getElem?_set_ne (Ne.symm hxc), f2 x hxk hxc, hgl x hxc]
    · intro x hx
      by_cases hxc : x = c
      · subst hxc
        exact ⟨s', en, u', en', ex, _, n', hs1, List.getElem?_set_self hcl2, hnr, hbu⟩
      · have hxk : x ∈ (k ++ rest).nodes := by
          have := hnn.mem_iff.2 hx
          rw [List.mem_cons] at this
          exact this.resolve_left hxc
        obtain ⟨v, ev, v', ev', e, a1, a2, a3⟩ := hkid x hxk
        exact ⟨v, ev, v', ev', e, v.nested, v'.nested, by rw [← hgl x hxc]; exact a1, by rw [List.getElem?_set_ne (Ne.symm hxc)]; exact a2, a3⟩

/-! ## What the energies are -/

/-- C79. Energies from an unbinding: there is one for each bound particle, and if the subhalo is resolved then the energy at each place is that of the particle at this place, among the
particles at the start of the unbinding, in its last iteration. None is positive. -/
theorem C79_from_unbinding {cfg : UnbindConfig} {env : UnbindEnv K D E} (henv : EnvOk env) (hprec : Stops cfg.fl cfg.prec) (hmin : 2 ≤ cfg.minNum) {snap : Int} {own : List (Particle D)}
    {s : Sub K D} {en : List E} (h : FromUnbinding cfg env snap own s en) :
    s.nbound ≤ en.length ∧ (1 < s.nbound → ∃ (extra : List (Particle D)) (last : Nat), ∀ j < s.nbound, ∃ i p,
      (unbindSource cfg env (own ++ extra))[i]? = some p ∧ s.particles[j]? = some p ∧
      en[j]? = some (env.energy last i) ∧ env.energy last i ≤ 0) := by
  obtain ⟨extra, u, s0, hux, hu, hle, htake⟩ := h
  obtain ⟨s1, en1, h1, _, hlen, hres⟩ := C79_energies henv hprec hmin (snap := snap) u (Nat.lt_succ_self _)
  rw [hu] at h1
  cases h1
  refine ⟨by omega, fun hr => ?_⟩
  obtain ⟨last, pids, hb, hen, hneg, _⟩ := hres (by omega)
  rw [hux] at hb
  refine ⟨extra, last, fun j hj => ?_⟩
  have hbl := hb.le
  have hj0 : j < s0.particles.length := by omega
  have hf := hb.from_
  have hjp : j < pids.length := by rw [hf.length_eq]; exact hj0
  have hp := (List.forall₂_iff_get.1 hf).2 j hjp hj0
  simp only [List.get_eq_getElem] at hp
  have henj : en[j]? = some (env.energy last pids[j]) := by
    rw [hen, List.getElem?_map, List.getElem?_take_of_lt (by omega), List.getElem?_eq_getElem hjp]
    rfl
  refine ⟨pids[j], _, hp, ?_, henj, hneg _ (List.mem_of_getElem? henj)⟩
  have := congrArg (fun l => l[j]?) htake
  simp only [List.getElem?_take_of_lt hj] at this
  rw [this, List.getElem?_eq_getElem hj0]

/-! ## `RefineParticles` -/

theorem FromUnbinding.congr {cfg : UnbindConfig} {env : UnbindEnv K D E} {snap : Int} {own : List (Particle D)} {s t : Sub K D} {en : List E}
    (h : FromUnbinding cfg env snap own s en)
    (hn : t.nbound ≤ s.nbound) (hp : t.particles.take t.nbound = s.particles.take t.nbound) : FromUnbinding cfg env snap own t en := by
  obtain ⟨extra, u, s0, hux, hu, hle, htake⟩ := h
  refine ⟨extra, u, s0, hux, hu, by omega, hp.trans ?_⟩
  have := congrArg (List.take t.nbound) htake
  rwa [List.take_take, List.take_take, Nat.min_eq_left hn] at this

/-- A subhalo that has at most one particle keeps it. -/
theorem stored_small {cfg : UnbindConfig} {env : UnbindEnv K D E} {fuel : Nat} {snap : Int} {u v : Sub K D} {en : List E} (hu : u.particles.length ≤ 1)
    (h : unbindStored cfg env fuel snap u = .ok (v, en)) : v.particles = u.particles ∧ v.nbound = u.particles.length := by
  rw [unbindStored] at h
  simp only at h
  set s1 := if u.particles.length < cfg.minNum then die snap u else u with hs1
  have hps : s1.particles = u.particles := by
    rw [hs1]
    split
    · exact (die_same snap u).2.1
    · rfl
  rw [← hps] at hu ⊢
  match hm : s1.particles with
  | [] =>
    rw [hm] at h
    cases h
    exact ⟨hm, rfl⟩
  | [p] =>
    rw [hm] at h
    cases h
    exact ⟨hm, rfl⟩
  | a :: b :: r =>
    rw [hm] at hu
    simp at hu

theorem nodeStored_from {cfg : UnbindConfig} {env : UnbindEnv K D E} {snap : Int} {u u' : Sub K D} {en : List E} {extra : List (Particle D)}
    (h : NodeStored cfg env snap u u' en extra) (hsmall : ¬ Resolved u → u.particles.length ≤ 1) : FromUnbinding cfg env snap u.particles u' en := by
  unfold NodeStored at h
  split at h
  · rename_i hn
    obtain ⟨v, hv, rfl⟩ := h
    have hl := hsmall (by unfold Resolved; omega)
    obtain ⟨h1, h2⟩ := stored_small hl hv
    refine ⟨[], u, v, (List.append_nil _).symm, hv, le_refl _, ?_⟩
    show (u.particles ++ extra).take v.nbound = v.particles.take v.nbound
    rw [h1, h2, List.take_append_of_le_length (le_refl _)]
  · exact ⟨extra, _, _, rfl, h, le_refl _, rfl⟩

theorem truncated_from {cfg : UnbindConfig} (hrelax : Keeps cfg.fl cfg.relax) {env : UnbindEnv K D E} {snap : Int} {own : List (Particle D)} {s : Sub K D} {en : List E}
    (hle : s.nbound ≤ s.particles.length) (h : FromUnbinding cfg env snap own s en) : FromUnbinding cfg env snap own (truncateSource cfg s) en := by
  obtain ⟨ps, e, hpre, hge, _⟩ := C31_truncate cfg hrelax s hle
  rw [e]
  refine h.congr (le_refl _) ?_
  show ps.take s.nbound = s.particles.take s.nbound
  obtain ⟨tl, htl⟩ := hpre
  rw [← htl, List.take_append_of_le_length hge]

theorem runAll_fst {S T : Type} {π : S → T} {actS : Nat → S → Outcome S} {act : Nat → T → Outcome T}
    (h : ∀ i st st', actS i st = .ok st' → act i (π st) = .ok (π st')) : ∀ (l : List Nat) (st st' : S), runAll actS l st = .ok st' → runAll act l (π st) = .ok (π st')
  | [], st, st', e => by
    cases e
    rfl
  | i :: l, st, st', e => by
    rw [runAll] at e ⊢
    obtain ⟨st1, e1, e2⟩ := bind_eq_ok e
    rw [h i st st1 e1, Outcome.bind_ok]
    exact runAll_fst h l st1 st' e2

theorem unbindAtStored_fst (hok : RefineOk cfg env) {snap : Int} {i : Nat} {st st' : List (Sub K D × List E)} (e : unbindAtStored cfg env snap i st = .ok st') :
    unbindAt cfg env snap i (st.map Prod.fst) = .ok (st'.map Prod.fst) := by
  rw [unbindAtStored] at e
  cases hs : st[i]? with
  | none =>
    rw [Outcome.get, hs] at e
    cases e
  | some p =>
    obtain ⟨s, en⟩ := p
    have hi := (List.getElem?_eq_some_iff.1 hs).1
    rw [get_some hs, Outcome.bind_ok] at e
    obtain ⟨u', en', h1, h2⟩ := stored_exists hok i snap s
    simp only at e
    rw [h1, Outcome.bind_ok, Outcome.set_of_lt hi] at e
    cases e
    rw [unbindAt, get_some (fst_some hs), Outcome.bind_ok, h2, Outcome.bind_ok, Outcome.set_of_lt (by simpa using hi), map_fst_set]

/-- C79. After `RefineParticles` each subhalo has the energies of its own unbinding, of its particles and those it was given, in the order of its particles. -/
theorem C79_refine (hok : RefineOk cfg env) (hrelax : Keeps cfg.fl cfg.relax) (snap : Int) {st : List (Sub K D × List E)} {nold : Nat} {groups heads : List (List Nat)}
    {field : List Nat} (h : Layout (st.map Prod.fst) nold groups heads field) (hsingle : OrphansSingle (st.map Prod.fst)) {fuel : Nat} (hfuel : st.length ≤ fuel)
    {order lone : List Nat} (ho : order.Perm (List.range groups.length)) (hlone : lone.Perm (field ++ (List.range (st.length - nold)).map (nold + ·))) :
    ∃ st', refineStored cfg env snap fuel order lone groups heads st = .ok st' ∧
      refineParticles cfg env snap fuel order lone groups heads (st.map Prod.fst) = .ok (st'.map Prod.fst) ∧ st'.length = st.length ∧
      ∀ (i : Nat) (u : Sub K D) (en : List E), st[i]? = some (u, en) → ∃ s en', st'[i]? = some (s, en') ∧ FromUnbinding cfg (env i) snap u.particles s en' := by
  have hlen : groups.length = heads.length := h.forests.length_eq
  have hsl : (st.map Prod.fst).length = st.length := List.length_map _
  have hle' := h.le
  rw [hsl] at hle'
  have hmemo : ∀ i ∈ order, i < groups.length := fun i hi => List.mem_range.1 (ho.mem_iff.1 hi)
  have hall : ∀ i (hi : i < groups.length), (groups.getD i []) = groups[i] := fun i hi => by
    simp [List.getD, hi]
  have hforest : ∀ i (hi : i < groups.length) (st' : List (Sub K D × List E)), Agree groups[i] st st' →
      GroupForest (st'.map Prod.fst) groups[i] (heads[i]'(hlen ▸ hi)) := by
    intro i hi st' hag
    have hfo := (List.forall₂_iff_get.1 h.forests).2 i hi (by omega)
    simp only [List.get_eq_getElem] at hfo
    exact hfo.congr (fun x hx s hs => ⟨s, by rw [List.getElem?_map, hag x hx, ← List.getElem?_map, hs], rfl⟩)
  have hhost : ∀ i ∈ order, ∀ st', st'.length = st.length ∧ Agree (groups.getD i []) st st' →
      ∃ out, refineHostStored cfg env snap fuel groups heads i st' = .ok out ∧ refineHost cfg env snap fuel groups heads i (st'.map Prod.fst) = .ok (out.map Prod.fst) ∧
      out.length = st'.length ∧ (∀ x, x ∉ groups.getD i [] → out[x]? = st'[x]?) ∧
      (∀ x ∈ groups.getD i [], ∃ u en u' en' e l l', st'[x]? = some (u, en) ∧ out[x]? = some (u'.withNested l', en') ∧
        NodeStored cfg (env x) snap (u.withNested l) u' en' e ∧ u'.nbound ≤ u'.particles.length) := by
    rintro i hi st' ⟨hst1, hst2⟩
    have hi' := hmemo i hi
    rw [hall i hi'] at hst2 ⊢
    have hgm : groups[i] ∈ groups := List.getElem_mem hi'
    exact refineHostStored_ok hok snap (List.getElem?_eq_getElem hi') (List.getElem?_eq_getElem (hlen ▸ hi')) (hforest i hi' st' hst2)
      (by
        have := h.nodup
        rw [List.nodup_flatten] at this
        exact this.1 _ hgm) (by omega : st'.length ≤ fuel) (fun x hx => by rw [hst1]; exact lt_of_lt_of_le (h.lt hgm hx) hle')
  have hdisj : ∀ i ∈ order, ∀ j ∈ order, i ≠ j → ∀ x ∈ groups.getD i [], x ∉ groups.getD j [] := by
    intro i hi j hj hij x hx
    have hi' := hmemo i hi
    have hj' := hmemo j hj
    rw [hall i hi'] at hx
    rw [hall j hj']
    exact h.disjoint (List.getElem?_eq_getElem hi') (List.getElem?_eq_getElem hj') hij hx
  obtain ⟨out, e, hl, hf, hq⟩ := runAll_local (act := refineHostStored cfg env snap fuel groups heads) (fun i => groups.getD i [])
    (Pre := fun i st' => st'.length = st.length ∧ Agree (groups.getD i []) st st')
    (Q := fun i a b => ∀ x ∈ groups.getD i [], ∃ u en u' en' e l l', a[x]? = some (u, en) ∧ b[x]? = some (u'.withNested l', en') ∧
        NodeStored cfg (env x) snap (u.withNested l) u' en' e ∧ u'.nbound ≤ u'.particles.length)
    order st (ho.nodup_iff.2 List.nodup_range) hdisj
    (by
      intro i hi st' hp
      obtain ⟨o, o1, _, o2⟩ := hhost i hi st' hp
      exact ⟨o, o1, o2⟩)
    (by
      rintro i _ st st' hl hag ⟨h1, h2⟩
      exact ⟨by rw [hl, h1], fun x hx => by rw [hag x hx, h2 x hx]⟩)
    (by
      rintro i _ a b a' b' ha hb h1 x hx
      obtain ⟨u, en, u', en', e, l, l', a1, a2, a3⟩ := h1 x hx
      exact ⟨u, en, u', en', e, l, l', by rw [ha x hx, a1], by rw [hb x hx, a2], a3⟩)
    (fun i _ => ⟨rfl, fun _ _ => rfl⟩)
  -- the same without energies
  have hpure : ∀ (l : List Nat) (a : List (Sub K D × List E)), l.Nodup → (∀ i ∈ l, i ∈ order) → (∀ i ∈ l, a.length = st.length ∧ Agree (groups.getD i []) st a) →
      ∀ b, runAll (refineHostStored cfg env snap fuel groups heads) l a = .ok b → runAll (refineHost cfg env snap fuel groups heads) l (a.map Prod.fst) = .ok (b.map Prod.fst) := by
    intro l
    induction l with
    | nil =>
      intro a _ _ _ b hb
      cases hb
      rfl
    | cons i l ih =>
      intro a hnd hin hpre b hb
      rw [List.nodup_cons] at hnd
      obtain ⟨o, o1, o2, o3, o4, _⟩ := hhost i (hin i (by simp)) a (hpre i (by simp))
      rw [runAll] at hb ⊢
      rw [o1, Outcome.bind_ok] at hb
      rw [o2, Outcome.bind_ok]
      refine ih o hnd.2 (fun j hj => hin j (by simp [hj])) (fun j hj => ?_) b hb
      obtain ⟨p1, p2⟩ := hpre j (by simp [hj])
      refine ⟨o3.trans p1, fun x hx => ?_⟩
      rw [o4 x (hdisj j (hin j (by simp [hj])) i (hin i (by simp)) (by rintro rfl; exact hnd.1 hj) x hx), p2 x hx]
  have e' := hpure order st (ho.nodup_iff.2 List.nodup_range) (fun _ h => h) (fun i _ => ⟨rfl, fun _ _ => rfl⟩) out e
  -- the others
  have hnodup : (groups.flatten ++ field).Nodup := h.all.nodup_iff.2 List.nodup_range
  have hfield : ∀ x ∈ field, x < nold := fun x hx =>
    List.mem_range.1 (h.all.mem_iff.1 (List.mem_append_right _ hx))
  have hlone' : lone.Perm (field ++ (List.range ((st.map Prod.fst).length - nold)).map (nold + ·)) := by rw [hsl]; exact hlone
  have hml := mem_lone hlone'
  rw [hsl] at hml
  have hln : lone.Nodup := by
    rw [hlone.nodup_iff, List.nodup_append]
    refine ⟨(List.nodup_append.1 hnodup).2.1, List.Nodup.map (fun a b hab => by simpa using hab) List.nodup_range, ?_⟩
    rintro a ha b hb rfl
    obtain ⟨c, _, rfl⟩ := List.mem_map.1 hb
    have := hfield _ ha
    omega
  have hlt : ∀ x ∈ lone, x < st.length := by
    intro x hx
    rcases (hml x).1 hx with h1 | ⟨h1, h2⟩
    · have := hfield x h1; omega
    · omega
  obtain ⟨mid, e2, hl', hf', hq'⟩ := runAll_local (act := unbindAtStored cfg env snap) (fun i => [i])
    (Pre := fun i st' => st'.length = st.length)
    (Q := fun x a b => ∃ u en u' en', a[x]? = some (u, en) ∧ b[x]? = some (u', en') ∧ unbindStored cfg (env x) (u.particles.length + 1) snap u = .ok (u', en'))
    lone out hln
    (by
      intro i _ j _ hij x hx
      simp only [List.mem_singleton] at hx ⊢
      omega)
    (by
      intro i hi st' hst
      have hi' : i < st'.length := by rw [hst]; exact hlt i hi
      obtain ⟨u', en', h1, _⟩ := stored_exists hok i snap st'[i].1
      refine ⟨st'.set i (u', en'), ?_, List.length_set, ?_, st'[i].1, st'[i].2, u', en', List.getElem?_eq_getElem hi', List.getElem?_set_self hi', h1⟩
      · rw [unbindAtStored, get_some (List.getElem?_eq_getElem hi'), Outcome.bind_ok, h1, Outcome.bind_ok, Outcome.set_of_lt hi']
      · intro x hx
        exact List.getElem?_set_ne (by simpa using Ne.symm (show x ≠ i by simpa using hx)))
    (by
      intro i _ st st' hl _ h1
      rw [hl, h1])
    (by
      rintro i _ a b a' b' ha hb ⟨u, en, u', en', a1, a2, a3⟩
      exact ⟨u, en, u', en', by rw [ha i (by simp), a1], by rw [hb i (by simp), a2], a3⟩)
    (fun i _ => hl)
  have e2' := runAll_fst (π := List.map Prod.fst) (fun i a b hab => unbindAtStored_fst hok hab) lone out mid e2
  have hgl : ∀ g ∈ groups, ∀ x ∈ g, x ∉ lone := by
    intro g hg x hx hxl
    rcases (hml x).1 hxl with h1 | ⟨h1, h2⟩
    · exact (List.nodup_append.1 hnodup).2.2 x (List.mem_flatten.2 ⟨g, hg, hx⟩) x h1 rfl
    · have := h.lt hg hx; omega
  have hfr : ∀ x, x ∉ lone → mid[x]? = out[x]? := fun x hx =>
    hf' x (fun i hi hxi => hx (by simp only [List.mem_singleton] at hxi; rwa [hxi]))
  have hfr2 : ∀ x, x ∉ groups.flatten → out[x]? = st[x]? := fun x hx =>
    hf x (fun i hi hxi => hx (by
      rw [hall i (hmemo i hi)] at hxi
      exact List.mem_flatten.2 ⟨_, List.getElem_mem (hmemo i hi), hxi⟩))
  refine ⟨mid.map (fun s => (truncateSource cfg s.1, s.2)), ?_, ?_, by rw [List.length_map, hl', hl], ?_⟩
  · rw [refineStored, e, Outcome.bind_ok, e2, Outcome.bind_ok]
  · rw [refineParticles, e', Outcome.bind_ok, e2', Outcome.bind_ok, List.map_map, List.map_map]
    rfl
  · intro i u en hu
    have hx := (List.getElem?_eq_some_iff.1 hu).1
    by_cases hxl : i ∈ lone
    · obtain ⟨v, ev, u', en', a1, a2, a3⟩ := hq' i hxl
      have hvu : st[i]? = some (v, ev) := by
        rw [← hfr2 i (fun hg => ?_)]
        · exact a1
        · obtain ⟨g, hg, hxg⟩ := List.mem_flatten.1 hg
          exact hgl g hg i hxg hxl
      rw [hu] at hvu
      cases hvu
      obtain ⟨w, hw1, _, _, _, hw2, _⟩ := unbindFull_spec hok i snap u
      obtain ⟨u2, en2, h1, h2⟩ := stored_exists hok i snap u
      rw [a3] at h1
      cases h1
      rw [hw1] at h2
      cases h2
      refine ⟨_, en', by rw [List.getElem?_map, a2]; rfl, truncated_from hrelax hw2 ⟨[], u, _, (List.append_nil _).symm, a3, le_refl _, rfl⟩⟩
    · have hxg : i ∈ groups.flatten := by
        have h3 := h.all.mem_iff (a := i)
        rw [List.mem_append, List.mem_range] at h3
        have h4 := hml i
        by_contra hc
        by_cases hxn : i < nold
        · exact hxl (h4.2 (Or.inl ((h3.2 hxn).resolve_left hc)))
        · exact hxl (h4.2 (Or.inr ⟨by omega, by omega⟩))
      obtain ⟨g, hg, hxg⟩ := List.mem_flatten.1 hxg
      obtain ⟨k, hk, rfl⟩ := List.getElem_of_mem hg
      have := hq k (ho.mem_iff.2 (List.mem_range.2 hk))
      rw [hall k hk] at this
      obtain ⟨v, ev, u', en', ex, l, l', a1, a2, a3, a4⟩ := this i hxg
      rw [hu] at a1
      cases a1
      refine ⟨_, en', by rw [List.getElem?_map, hfr i hxl, a2]; rfl, truncated_from hrelax (s := u'.withNested l') a4 ?_⟩
      have hfrom := nodeStored_from a3 (fun hn => hsingle u (List.mem_of_getElem? (fst_some hu)) hn)
      exact hfrom.congr (t := u'.withNested l') (le_refl _) rfl

/-! ## `MergeSubhalos` -/

omit [LinearOrder E] [Zero E] [MassSum K] in
theorem runAll_keeps {S T : Type} {f : S → T} {act : Nat → S → Outcome S} (h : ∀ i st st', act i st = .ok st' → f st' = f st) :
    ∀ (l : List Nat) (st st' : S), runAll act l st = .ok st' → f st' = f st
  | [], st, st', e => by
    cases e
    rfl
  | i :: l, st, st', e => by
    rw [runAll] at e
    obtain ⟨st1, e1, e2⟩ := bind_eq_ok e
    rw [runAll_keeps h l st1 st' e2, h i st st1 e1]

omit [LinearOrder E] [Zero E] [MassSum K] in
/-- What of a subhalo is written. -/
def shown (s : Sub K D) : Nat × List (Particle D) := (s.nbound, s.particles)

theorem unglueHost_shown {groups : List (List Nat)} {before : List (Sub K D)} {h : Nat} {subs subs' : List (Sub K D)} (e : unglueHost groups before h subs = .ok subs') :
    subs'.map shown = subs.map shown := by
  rw [unglueHost] at e
  obtain ⟨g, _, e⟩ := bind_eq_ok e
  cases g with
  | nil =>
    cases e
    rfl
  | cons c g =>
    obtain ⟨n, _, e⟩ := bind_eq_ok e
    rw [unglue] at e
    obtain ⟨s, e1, e⟩ := bind_eq_ok e
    cases hs : subs[c]? with
    | none =>
      rw [Outcome.get, hs] at e1
      cases e1
    | some t =>
      rw [get_some hs] at e1
      cases e1
      rw [Outcome.set_of_lt (List.getElem?_eq_some_iff.1 hs).1] at e
      cases e
      exact map_set_same shown hs rfl

/-- One entry after the loops over the merged subhaloes: unbound again and cut if it is a sink, else as it was. -/
def AgainStored (cfg : UnbindConfig) (env : UnbindEnv K D E) (snap : Int) (again : Prop) (a b : Sub K D × List E) : Prop :=
  (again → ∃ w, unbindStored cfg env (a.1.particles.length + 1) snap a.1 = .ok (w, b.2) ∧ b.1 = truncateSource cfg w ∧ w.nbound ≤ w.particles.length) ∧ (¬ again → b = a)

theorem again_ok (hok : RefineOk cfg env) (snap : Int) (merged : List Nat) {each : List Nat} {st : List (Sub K D × List E)} (he : each.Perm (List.range st.length)) :
    ∃ st2 st3, runAll (unbindMergedStored cfg env snap merged) each st = .ok st2 ∧ onSubs (runAll (truncMerged cfg merged) each) st2 = .ok st3 ∧
      (∃ subs2, runAll (unbindMerged cfg env snap merged) each (st.map Prod.fst) = .ok subs2 ∧ runAll (truncMerged cfg merged) each subs2 = .ok (st3.map Prod.fst)) ∧
      st3.length = st.length ∧ ∀ (i : Nat) (a : Sub K D × List E), st[i]? = some a → ∃ b, st3[i]? = some b ∧ AgainStored cfg (env i) snap (i ∈ merged) a b := by
  obtain ⟨st2, e2, hl2, hq2⟩ := runAll_each (act := unbindMergedStored cfg env snap merged)
    (R := fun i a b => (i ∈ merged → unbindStored cfg (env i) (a.1.particles.length + 1) snap a.1 = .ok b ∧ b.1.nbound ≤ b.1.particles.length) ∧ (i ∉ merged → b = a))
    he (by
      intro i st' s hs
      have hi := (List.getElem?_eq_some_iff.1 hs).1
      by_cases hm : i ∈ merged
      · obtain ⟨u', en', h1, h2⟩ := stored_exists hok i snap s.1
        obtain ⟨w, hw1, _, _, _, hw2, _⟩ := unbindFull_spec hok i snap s.1
        rw [h2] at hw1
        cases hw1
        refine ⟨(u', en'), ?_, fun _ => ⟨h1, hw2⟩, fun hn => absurd hm hn⟩
        rw [unbindMergedStored, if_pos hm, unbindAtStored, get_some hs, Outcome.bind_ok, h1, Outcome.bind_ok, Outcome.set_of_lt hi]
      · refine ⟨s, ?_, fun hn => absurd hn hm, fun _ => rfl⟩
        rw [unbindMergedStored, if_neg hm]
        congr 1
        obtain ⟨hlt, rfl⟩ := List.getElem?_eq_some_iff.1 hs
        exact (List.set_getElem_self hlt).symm)
  have e2' : runAll (unbindMerged cfg env snap merged) each (st.map Prod.fst) = .ok (st2.map Prod.fst) := by
    refine runAll_fst (π := List.map Prod.fst) (fun i a b hab => ?_) each st st2 e2
    rw [unbindMergedStored] at hab
    rw [unbindMerged]
    split at hab
    · rename_i hm
      rw [if_pos hm]
      exact unbindAtStored_fst hok hab
    · rename_i hm
      rw [if_neg hm]
      cases hab
      rfl
  obtain ⟨subs3, e3, hl3, hq3⟩ := runAll_each (act := truncMerged cfg merged)
    (R := fun i a b => (i ∈ merged → b = truncateSource cfg a) ∧ (i ∉ merged → b = a)) (each := each) (st := st2.map Prod.fst)
    (by rw [List.length_map, hl2]; exact he) (by
      intro i st' s hs
      by_cases hi : i ∈ merged
      · refine ⟨truncateSource cfg s, ?_, fun _ => rfl, fun hn => absurd hi hn⟩
        rw [truncMerged, if_pos hi, get_some hs, Outcome.bind_ok, Outcome.set_of_lt (List.getElem?_eq_some_iff.1 hs).1]
      · refine ⟨s, ?_, fun hn => absurd hn hi, fun _ => rfl⟩
        rw [truncMerged, if_neg hi]
        congr 1
        obtain ⟨hlt, rfl⟩ := List.getElem?_eq_some_iff.1 hs
        exact (List.set_getElem_self hlt).symm)
  rw [List.length_map] at hl3
  obtain ⟨st3, e3', hfst, hsnd⟩ := onSubs_ok e3 hl3
  have hst3 : st3.length = st.length := by rw [← List.length_map (f := Prod.fst), hfst, hl3, hl2]
  refine ⟨st2, st3, e2, e3', ⟨_, e2', by rw [hfst]; exact e3⟩, hst3, fun i a ha => ?_⟩
  obtain ⟨b, hb, hb1, hb2⟩ := hq2 i a ha
  obtain ⟨c, hc, hc1, hc2⟩ := hq3 i b.1 (by rw [List.getElem?_map, hb]; rfl)
  have hi : i < st3.length := by rw [hst3]; exact (List.getElem?_eq_some_iff.1 ha).1
  have h3 : st3[i]? = some (c, b.2) := by
    rw [List.getElem?_eq_getElem hi]
    congr 1
    have h1 : (st3.map Prod.fst)[i]? = some c := by rw [hfst, hc]
    have h2 : (st3.map Prod.snd)[i]? = some b.2 := by rw [hsnd, List.getElem?_map, hb]; rfl
    rw [List.getElem?_map, List.getElem?_eq_getElem hi] at h1 h2
    exact Prod.ext (Option.some.inj h1) (Option.some.inj h2)
  refine ⟨_, h3, fun hm => ⟨b.1, (hb1 hm).1, hc1 hm, (hb1 hm).2⟩, fun hm => ?_⟩
  rw [← hb2 hm]
  exact Prod.ext (hc2 hm) rfl

theorem zip_entry {st st' : List (Sub K D × List E)} {i : Nat} {a : Sub K D × List E} {s : Sub K D} (hs : st'.map Prod.snd = st.map Prod.snd) (ha : st[i]? = some a)
    (h : (st'.map Prod.fst)[i]? = some s) : st'[i]? = some (s, a.2) := by
  rw [List.getElem?_map] at h
  cases hx : st'[i]? with
  | none =>
    rw [hx] at h
    cases h
  | some b =>
    rw [hx] at h
    have h2 : (st'.map Prod.snd)[i]? = some a.2 := by rw [hs, List.getElem?_map, ha]; rfl
    rw [List.getElem?_map, hx] at h2
    exact congrArg some (Prod.ext (Option.some.inj h) (Option.some.inj h2))

/-- C79. After `MergeSubhalos` the energies of each subhalo are those of its last unbinding: that in `RefineParticles`, or, for those into which others merged, the second one, of its
particles with those it got (of its most bound particle, if it merged itself). -/
theorem C79_merged {env1 : Nat → UnbindEnv K D E} (hok : RefineOk cfg env) (hrelax : Keeps cfg.fl cfg.relax) (mass : D → K) (hmass : ∀ i, (env i).mass = mass) (on : Bool)
    (sunk : Nat → Nat → Bool) {snap : Int} (hsnap : snap ≠ nullSnap) {st : List (Sub K D × List E)} {own : Nat → List (Particle D)} {nold : Nat} {groups heads : List (List Nat)}
    {field : List Nat} (h : Layout (st.map Prod.fst) nold groups heads field) (hset : ∀ s ∈ st.map Prod.fst, Settled cfg.minNum s)
    (hfrom : ∀ (i : Nat) (s : Sub K D) (en : List E), st[i]? = some (s, en) → FromUnbinding cfg (env1 i) snap (own i) s en)
    {fuel : Nat} (hfuel : st.length < fuel) {order each : List Nat} (ho : order.Perm (List.range groups.length)) (he : each.Perm (List.range st.length)) :
    ∃ st', mergeStored cfg env mass on sunk snap fuel order each groups heads st = .ok st' ∧
      mergeSubhalos cfg env mass on sunk snap fuel order each groups heads (st.map Prod.fst) = .ok (st'.map Prod.fst) ∧ st'.length = st.length ∧
      ∀ (i : Nat) (s : Sub K D) (en : List E), st[i]? = some (s, en) → ∃ s' en', st'[i]? = some (s', en') ∧
        ((en' = en ∧ FromUnbinding cfg (env1 i) snap (own i) s' en') ∨ FromUnbinding cfg (env i) snap s.particles s' en' ∨
          FromUnbinding cfg (env i) snap (s.particles.take 1) s' en') := by
  have hsl : (st.map Prod.fst).length = st.length := List.length_map _
  have he' : each.Perm (List.range (st.map Prod.fst).length) := by rw [hsl]; exact he
  have hfuel' : (st.map Prod.fst).length < fuel := by rw [hsl]; exact hfuel
  obtain ⟨glued, hosts, tr, merged, traps, e1, e2, e3, hd⟩ := detect_ok sunk snap h hfuel' ho he'
  have htl : tr.length = st.length := by rw [hd.length, hsl]
  set trapped := tr.zip (st.map Prod.snd) with htr
  have htf : trapped.map Prod.fst = tr := List.map_fst_zip (by simp [htl])
  have hts : trapped.map Prod.snd = st.map Prod.snd := List.map_snd_zip (by simp [htl])
  have htlen : trapped.length = st.length := by rw [← List.length_map (f := Prod.fst), htf, htl]
  cases on with
  | false =>
    obtain ⟨out, e4, hm⟩ := mergingCore_off (cfg := cfg) mass sunk h hd ho (fun _ => [])
    have hol : out.length = trapped.length := by rw [hm.length, hsl, htlen]
    obtain ⟨st', f1, f2, f3⟩ := onSubs_ok (f := runAll (unglueHost groups (st.map Prod.fst)) order) (st := trapped) (by rw [htf]; exact e4) hol
    refine ⟨st', ?_, ?_, by rw [← List.length_map (f := Prod.fst), f2, hol, htlen], ?_⟩
    · rw [mergeStored, e1, Outcome.bind_ok, e2, Outcome.bind_ok, e3, Outcome.bind_ok]
      simp only [Bool.false_eq_true, if_false]
      rw [Outcome.bind_ok, f1]
    · rw [mergeSubhalos, e1, Outcome.bind_ok, e2, Outcome.bind_ok, e3, Outcome.bind_ok]
      simp only [Bool.false_eq_true, if_false]
      rw [Outcome.bind_ok, e4, f2]
    · intro i s en hs
      obtain ⟨s', hs', _⟩ := hm.each i s (fst_some hs)
      obtain ⟨h1, _, h2, _⟩ := hm.still i s s' (fst_some hs) hs' (by simp only [mergesOf, fst_some hs]) (fun j hj => by
        cases hb : (st.map Prod.fst)[j]? with
        | none => simp [mergesOf, hb] at hj
        | some t => exact absurd ((mergesOf_iff hb i).1 hj).1 (by decide))
      refine ⟨s', en, zip_entry (f3.trans hts) hs (by rw [f2]; exact hs'), Or.inl ⟨rfl, ?_⟩⟩
      exact (hfrom i s en hs).congr (le_of_eq h1) (by rw [h2])
  | true =>
    obtain ⟨done, mid, e4, hl4, hq4, _, _, e5⟩ := mergeTrapped_ok hok hrelax mass hmass sunk hsnap h hset hd hfuel' ho he'
    obtain ⟨out, e6, hm⟩ := mergingCore_on hok.min mass sunk h hset hd ho hl4 hq4
    rw [mergeTrapped, e5, Outcome.bind_ok] at e4
    obtain ⟨subs2, g1, g2⟩ := bind_eq_ok e4
    have hlen2 : subs2.length = mid.length := runAll_keeps (f := List.length) (act := unbindMerged cfg env snap merged) (fun i a b hab => by
      rw [unbindMerged] at hab
      split at hab
      · rw [unbindAt] at hab
        obtain ⟨x, _, hab⟩ := bind_eq_ok hab
        obtain ⟨y, _, hab⟩ := bind_eq_ok hab
        rw [Outcome.set] at hab
        split at hab
        · cases hab
          exact List.length_set
        · cases hab
      · cases hab
        rfl) each mid subs2 g1
    have hlen3 : done.length = subs2.length := runAll_keeps (f := List.length) (act := truncMerged cfg merged) (fun i a b hab => by
      rw [truncMerged] at hab
      split at hab
      · obtain ⟨x, _, hab⟩ := bind_eq_ok hab
        rw [Outcome.set] at hab
        split at hab
        · cases hab
          exact List.length_set
        · cases hab
      · cases hab
        rfl) each subs2 done g2
    obtain ⟨st1, f1, f2, f3⟩ := onSubs_ok (f := runAll (mergeHost mass snap fuel groups) order) (st := trapped) (by rw [htf]; exact e5) (by omega)
    have hst1 : st1.length = st.length := by rw [← List.length_map (f := Prod.fst), f2]; omega
    obtain ⟨st2, st3, k1, k2, ⟨subs2', k3, k4⟩, k5, k6⟩ := again_ok hok snap merged (each := each) (st := st1) (by rw [hst1]; exact he)
    rw [f2, g1] at k3
    cases k3
    rw [g2] at k4
    have hdone : st3.map Prod.fst = done := (Outcome.ok.inj k4).symm
    obtain ⟨st', j1, j2, j3⟩ := onSubs_ok (f := runAll (unglueHost groups (st.map Prod.fst)) order) (st := st3) (by rw [hdone]; exact e6) (by rw [hm.length, hsl, k5, hst1])
    refine ⟨st', ?_, ?_, by rw [← List.length_map (f := Prod.fst), j2, hm.length, hsl], ?_⟩
    · rw [mergeStored, e1, Outcome.bind_ok, e2, Outcome.bind_ok, e3, Outcome.bind_ok]
      simp only [if_true]
      rw [mergeTrappedStored, ← htr, f1, Outcome.bind_ok, k1, Outcome.bind_ok, k2, Outcome.bind_ok, j1]
    · rw [mergeSubhalos, e1, Outcome.bind_ok, e2, Outcome.bind_ok, e3, Outcome.bind_ok]
      simp only [if_true]
      rw [mergeTrapped, e5, Outcome.bind_ok, g1, Outcome.bind_ok, g2, Outcome.bind_ok, e6, j2]
    · intro i s en hs
      have hi := (List.getElem?_eq_some_iff.1 hs).1
      have hss := fst_some hs
      have hse := hset s (List.mem_of_getElem? hss)
      obtain ⟨u, hu⟩ : ∃ u, tr[i]? = some u := ⟨_, List.getElem?_eq_getElem (by omega)⟩
      obtain ⟨v, v', b1, b2, b3, b4, b5, b6⟩ := hq4 i s u hss hu
      obtain ⟨s', hs', _⟩ := hm.each i s hss
      have hu' : u.particles = s.particles := by
        obtain ⟨l, q1, _⟩ := hd.each i s hss
        rw [hu] at q1
        rw [Option.some.inj q1]
        cases traps i <;> rfl
      have hst1i : st1[i]? = some (v, en) := zip_entry (st := st) (f3.trans hts) hs (by rw [f2]; exact b1)
      obtain ⟨b, hb, hb1, hb2⟩ := k6 i _ hst1i
      have hb' : b.1 = v' := by
        have : (st3.map Prod.fst)[i]? = some b.1 := by rw [List.getElem?_map, hb]; rfl
        rw [hdone, b2] at this
        exact (Option.some.inj this).symm
      have hst' : st'[i]? = some (s', b.2) := zip_entry j3 hb (by rw [j2]; exact hs')
      have hshow : shown s' = shown v' := by
        have h1 := runAll_keeps (f := List.map shown) (fun i a b hab => unglueHost_shown hab) order done out e6
        have h2 := congrArg (fun l => l[i]?) h1
        simp only [List.getElem?_map, hs', b2, Option.map_some] at h2
        exact Option.some.inj h2
      have hsn : s'.nbound = v'.nbound := congrArg Prod.fst hshow
      have hsp : s'.particles = v'.particles := congrArg Prod.snd hshow
      refine ⟨s', b.2, hst', ?_⟩
      by_cases him : i ∈ merged
      · obtain ⟨w, hw1, hw2, hw3⟩ := hb1 him
        have hfw : ∀ o x, v.particles = o ++ x → FromUnbinding cfg (env i) snap o s' b.2 := by
          intro o x hox
          have : FromUnbinding cfg (env i) snap o (truncateSource cfg w) b.2 :=
            truncated_from hrelax hw3 ⟨x, v, w, hox, hw1, le_refl _, rfl⟩
          rw [← hw2, hb'] at this
          exact this.congr (le_of_eq hsn) (by rw [hsp])
        right
        cases hmi : mergesOf true (st.map Prod.fst) traps i with
        | none =>
          obtain ⟨extra, n, rfl, _⟩ := b4 hmi
          exact Or.inl (hfw _ extra (by simp [hu']))
        | some p =>
          obtain ⟨x, rest, hx, rfl⟩ := b3 ⟨p, hmi⟩
          exact Or.inr (hfw _ [] (by rw [hx]; rfl))
      · left
        have hbe := hb2 him
        refine ⟨by rw [hbe], ?_⟩
        rw [hbe]
        cases hmi : mergesOf true (st.map Prod.fst) traps i with
        | some p =>
          obtain ⟨c1, c2, _⟩ := hm.away i p s s' hss hs' hmi
          have hal := hse.alive ((mergesOf_iff hss p).1 hmi).2.1
          have := hok.min
          refine (hfrom i s en hs).congr (by omega) ?_
          rw [c1, c2, List.take_take]
          rfl
        | none =>
          have hno : ∀ j, mergesOf true (st.map Prod.fst) traps j ≠ some i := by
            intro j hj
            cases hb : (st.map Prod.fst)[j]? with
            | none => simp [mergesOf, hb] at hj
            | some t =>
              obtain ⟨_, r1, r2⟩ := (mergesOf_iff hb i).1 hj
              refine him ((hd.merged_ i).2 ⟨j, t, hb, ?_, r2⟩)
              have := ((hset t (List.mem_of_getElem? hb)).alive r1).1
              have := hok.min
              omega
          obtain ⟨c1, _, c2, _⟩ := hm.still i s s' hss hs' hmi hno
          exact (hfrom i s en hs).congr (le_of_eq c1) (by rw [c2])

end
end HBT.Props
