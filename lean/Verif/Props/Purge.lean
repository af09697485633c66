import Verif.Model.Purge
import Verif.Spec.Purge
import Mathlib.Data.List.Nodup
import Mathlib.Order.Basic
import Mathlib.Data.Nat.Find
import Mathlib.Tactic.Common
/-!
# C66: most-bound particles in builds with inclusive masses
-/
namespace HBT.Props
open HBT.Model HBT.Spec
variable {K D : Type}

theorem purgeFind_spec (excl : List Int) (ps : List (Particle D)) (i : Nat) :
    (∀ k, purgeFind excl i ps = some k → ∃ j, k = i + j ∧ k ≠ 0 ∧ (∃ p, ps[j]? = some p ∧ p.id ∉ excl) ∧
      ∀ j', i + j' ≠ 0 → j' < j → ∀ p, ps[j']? = some p → p.id ∈ excl) ∧
    (purgeFind excl i ps = none → ∀ j, i + j ≠ 0 → ∀ p, ps[j]? = some p → p.id ∈ excl) := by
  induction ps generalizing i with
  | nil => exact ⟨by simp [purgeFind], by simp⟩
  | cons q ps ih =>
    obtain ⟨h1, h2⟩ := ih (i + 1)
    have rest : (i ≠ 0 → q.id ∈ excl) →
        (∀ k, purgeFind excl (i + 1) ps = some k → ∃ j, k = i + j ∧ k ≠ 0 ∧ (∃ p, (q :: ps)[j]? = some p ∧ p.id ∉ excl) ∧
          ∀ j', i + j' ≠ 0 → j' < j → ∀ p, (q :: ps)[j']? = some p → p.id ∈ excl) ∧
        (purgeFind excl (i + 1) ps = none → ∀ j, i + j ≠ 0 → ∀ p, (q :: ps)[j]? = some p → p.id ∈ excl) := by
      intro hq
      constructor
      · intro k hk
        obtain ⟨j, e, h0, hp, hl⟩ := h1 k hk
        refine ⟨j + 1, by omega, h0, by simpa using hp, ?_⟩
        intro j' hj0 hj p hp
        cases j' with
        | zero => simp at hp; subst hp; exact hq (by omega)
        | succ j' => exact hl j' (by omega) (by omega) p (by simpa using hp)
      · intro hn j hj p hp
        cases j with
        | zero => simp at hp; subst hp; exact hq (by omega)
        | succ j => exact h2 hn j (by omega) p (by simpa using hp)
    rw [purgeFind]
    split
    · split
      · refine ⟨?_, by simp⟩
        intro k hk
        cases hk
        exact ⟨0, rfl, by assumption, ⟨q, rfl, by assumption⟩, fun j' _ h => by omega⟩
      · exact rest (fun h => absurd h (by assumption))
    · exact rest (fun _ => Classical.not_not.mp (by assumption))

/-- What the code makes of one subhalo, `ids` being the particles of smaller ones: nothing without an own particle after
the front, otherwise the first of these comes to the front. -/
def Purged (ids : List Int) (s : Sub K D) (d : D) (s' : Sub K D) (d' : D) : Prop :=
  (s' = s ∧ d' = d ∧ ∀ i, ¬ FirstOwn ids s.particles i) ∨
  ∃ i p ps, FirstOwn ids s.particles i ∧ Exchanged i s.particles ps ∧ s' = { s with particles := ps } ∧
    ps[0]? = some p ∧ d' = p.data

theorem exchanged_perm {α : Type} {i : Nat} {l l' : List α} (hi : i < l.length) (h : Exchanged i l l') : l'.Perm l := by
  obtain ⟨h1, h2, h3, h4⟩ := h
  have h0 : 0 < l.length := by omega
  have : l' = (l.set 0 l[i]).set i l[0] := by
    apply List.ext_getElem?
    intro j
    by_cases hj : j = i
    · subst hj
      rw [h3, List.getElem?_set_self (by simpa using hi), List.getElem?_eq_getElem h0]
    · rw [List.getElem?_set_ne (Ne.symm hj)]
      by_cases hj0 : j = 0
      · subst hj0
        rw [h2, List.getElem?_set_self h0, List.getElem?_eq_getElem hi]
      · rw [List.getElem?_set_ne (Ne.symm hj0), h4 j hj0 hj]
  rw [this]
  exact List.set_set_perm h0 hi

theorem firstOwn_exists {ids : List Int} {ps : List (Particle D)} (h : ∃ j p, j ≠ 0 ∧ ps[j]? = some p ∧ p.id ∉ ids) :
    ∃ i, FirstOwn ids ps i := by
  classical
  have hex : ∃ j, j ≠ 0 ∧ ∃ p, ps[j]? = some p ∧ p.id ∉ ids := by
    obtain ⟨j, p, a, b, c⟩ := h; exact ⟨j, a, p, b, c⟩
  refine ⟨Nat.find hex, (Nat.find_spec hex).1, (Nat.find_spec hex).2, ?_⟩
  intro j h0 hj p hp
  by_contra hn
  exact Nat.find_min hex hj ⟨h0, p, hp, hn⟩

theorem purgeOne_spec (ids : List Int) (s : Sub K D) (d : D) :
    ∃ s' d', purgeOne ids s d = .ok (s', d') ∧ Purged ids s d s' d' := by
  obtain ⟨h1, h2⟩ := purgeFind_spec ids s.particles 0
  unfold purgeOne
  cases hf : purgeFind ids 0 s.particles with
  | none =>
    refine ⟨s, d, rfl, Or.inl ⟨rfl, rfl, ?_⟩⟩
    rintro i ⟨hi, ⟨p, hp, hn⟩, _⟩
    exact hn (h2 hf i (by omega) p hp)
  | some i =>
    obtain ⟨j, e, h0, ⟨p, hp, hn⟩, hl⟩ := h1 i hf
    have e : i = j := by omega
    subst e
    have hlt := (List.getElem?_eq_some_iff.mp hp).1
    have hp' : s.particles[i] = p := (List.getElem?_eq_some_iff.mp hp).2
    simp only
    rw [Outcome.get_of_lt hlt, Outcome.bind_ok, Outcome.get_of_lt (by omega), Outcome.bind_ok, Outcome.set_of_lt (by omega), Outcome.bind_ok,
      Outcome.set_of_lt (by simpa using hlt), Outcome.bind_ok]
    refine ⟨_, _, rfl, Or.inr ⟨i, p, _, ⟨h0, ⟨p, hp, hn⟩, fun j a b => hl j (by omega) b⟩, ⟨by simp, ?_, ?_, ?_⟩, rfl, ?_, by rw [hp']⟩⟩
    · rw [List.getElem?_set_ne h0, List.getElem?_set_self (by omega), hp']; exact hp.symm
    · rw [List.getElem?_set_self (by simpa using hlt)]
      exact (List.getElem?_eq_getElem _).symm
    · intro j a b
      rw [List.getElem?_set_ne (Ne.symm b), List.getElem?_set_ne (Ne.symm a)]
    · rw [List.getElem?_set_ne h0, List.getElem?_set_self (by omega), hp']

theorem firstOwn_congr {ids ids' : List Int} (h : ∀ x, x ∈ ids ↔ x ∈ ids') (ps : List (Particle D)) (i : Nat) :
    FirstOwn ids ps i ↔ FirstOwn ids' ps i := by
  unfold FirstOwn
  simp only [h]

theorem purged_congr {ids ids' : List Int} (h : ∀ x, x ∈ ids ↔ x ∈ ids') {s s' : Sub K D} {d d' : D} (hp : Purged ids s d s' d') :
    Purged ids' s d s' d' := by
  rcases hp with ⟨a, b, c⟩ | ⟨i, p, ps, a, b⟩
  · exact Or.inl ⟨a, b, fun i hi => c i ((firstOwn_congr h _ i).mpr hi)⟩
  · exact Or.inr ⟨i, p, ps, (firstOwn_congr h _ i).mp a, b⟩

theorem purged_perm {ids : List Int} {s s' : Sub K D} {d d' : D} (hp : Purged ids s d s' d') :
    s'.particles.Perm s.particles ∧ s' = { s with particles := s'.particles } := by
  rcases hp with ⟨a, b, c⟩ | ⟨i, p, ps, ⟨_, ⟨q, hq, _⟩, _⟩, b, c, _⟩
  · subst a; exact ⟨.refl _, rfl⟩
  · subst c
    exact ⟨exchanged_perm (List.getElem?_eq_some_iff.mp hq).1 b, rfl⟩

/-- The particles of the subhaloes `cs` that are no orphans. -/
def sharedIds (subs : List (Sub K D)) (cs : List Nat) : List Int :=
  (cs.filterMap (fun c => subs[c]?)).flatMap (fun s => if 1 < s.nbound then s.particles.map Particle.id else [])

theorem sharedIds_congr {subs subs' : List (Sub K D)} {cs : List Nat} (h : ∀ c ∈ cs, subs'[c]? = subs[c]?) : sharedIds subs' cs = sharedIds subs cs := by
  unfold sharedIds
  congr 1
  induction cs with
  | nil => rfl
  | cons c cs ih =>
    simp only [List.filterMap_cons]
    rw [h c (by simp), ih (fun c hc => h c (by simp [hc]))]

theorem mem_sharedIds {subs : List (Sub K D)} {cs : List Nat} {x : Int} :
    x ∈ sharedIds subs cs ↔ ∃ c ∈ cs, ∃ s, subs[c]? = some s ∧ 1 < s.nbound ∧ ∃ p ∈ s.particles, p.id = x := by
  unfold sharedIds
  simp only [List.mem_flatMap, List.mem_filterMap]
  constructor
  · rintro ⟨s, ⟨c, hc, hs⟩, hx⟩
    split at hx
    · obtain ⟨p, hp, rfl⟩ := List.mem_map.mp hx
      exact ⟨c, hc, s, hs, by assumption, p, hp, rfl⟩
    · simp at hx
  · rintro ⟨c, hc, s, hs, hn, p, hp, rfl⟩
    exact ⟨s, ⟨c, hc, hs⟩, by rw [if_pos hn]; exact List.mem_map.mpr ⟨p, hp, rfl⟩⟩

/-- What becomes of one member, `ids` being the particles of smaller ones. -/
def MemberPurged (ids : List Int) (s : Sub K D) (d : D) (s' : Sub K D) (d' : D) : Prop :=
  (s.nbound ≤ 1 → s' = s ∧ d' = d) ∧ (1 < s.nbound → Purged ids s d s' d')

theorem purgeMembers_spec (cs : List Nat) (hn : cs.Nodup) (excl : List Int) (st : List (Sub K D) × List D)
    (h1 : ∀ c ∈ cs, c < st.1.length) (h2 : st.2.length = st.1.length) :
    ∃ st', purgeMembers cs excl st = .ok st' ∧ st'.1.length = st.1.length ∧ st'.2.length = st.2.length ∧
      (∀ c, c ∉ cs → st'.1[c]? = st.1[c]? ∧ st'.2[c]? = st.2[c]?) ∧
      ∀ (k c : Nat) (s : Sub K D) (d : D), cs[k]? = some c → st.1[c]? = some s → st.2[c]? = some d →
        ∃ s' d', st'.1[c]? = some s' ∧ st'.2[c]? = some d' ∧ MemberPurged (excl ++ sharedIds st.1 (cs.take k)) s d s' d' := by
  induction cs generalizing excl st with
  | nil => exact ⟨st, rfl, rfl, rfl, fun _ _ => ⟨rfl, rfl⟩, by simp⟩
  | cons c cs ih =>
    obtain ⟨hc, hn⟩ := List.nodup_cons.mp hn
    have hlt := h1 c (by simp)
    have hlt2 : c < st.2.length := by omega
    rw [purgeMembers, Outcome.get_of_lt hlt, Outcome.bind_ok, Outcome.get_of_lt hlt2, Outcome.bind_ok]
    by_cases hb : 1 < st.1[c].nbound
    · rw [if_pos hb]
      obtain ⟨s', d', e, hp⟩ := purgeOne_spec excl st.1[c] st.2[c]
      rw [e, Outcome.bind_ok, Outcome.set_of_lt hlt, Outcome.bind_ok, Outcome.set_of_lt hlt2, Outcome.bind_ok]
      obtain ⟨st', e1, l1, l2, hout, hin⟩ := ih hn (s'.particles.map Particle.id ++ excl) (st.1.set c s', st.2.set c d')
        (fun c' hc' => by simpa using h1 c' (by simp [hc'])) (by simpa using h2)
      refine ⟨st', e1, by simpa using l1, by simpa using l2, ?_, ?_⟩
      · intro x hx
        have hx1 : x ≠ c := fun h => hx (by simp [h])
        obtain ⟨a, b⟩ := hout x (fun h => hx (by simp [h]))
        rw [a, b]
        exact ⟨List.getElem?_set_ne (Ne.symm hx1), List.getElem?_set_ne (Ne.symm hx1)⟩
      · intro k x s d hk hs hd
        cases k with
        | zero =>
          simp at hk
          subst hk
          obtain ⟨a, b⟩ := hout c hc
          have es : s = st.1[c] := by rw [List.getElem?_eq_getElem hlt] at hs; exact (Option.some.inj hs).symm
          have ed : d = st.2[c] := by rw [List.getElem?_eq_getElem hlt2] at hd; exact (Option.some.inj hd).symm
          subst es ed
          refine ⟨s', d', by rw [a]; exact List.getElem?_set_self hlt, by rw [b]; exact List.getElem?_set_self hlt2,
            fun h => absurd hb (by omega), fun _ => ?_⟩
          simpa [sharedIds] using hp
        | succ k =>
          simp at hk
          have hxc : x ≠ c := by
            rintro rfl
            exact hc (List.mem_of_getElem? hk)
          obtain ⟨s1, d1, a, b, c1, c2⟩ := hin k x s d hk (by simpa [List.getElem?_set_ne (Ne.symm hxc)] using hs)
            (by simpa [List.getElem?_set_ne (Ne.symm hxc)] using hd)
          refine ⟨s1, d1, a, b, c1, fun h => purged_congr ?_ (c2 h)⟩
          intro y
          rw [sharedIds_congr (subs := st.1) (subs' := st.1.set c s') (cs := cs.take k) (fun z hz => by
            refine List.getElem?_set_ne ?_
            rintro rfl
            exact hc (List.mem_of_mem_take hz))]
          have hids : y ∈ s'.particles.map Particle.id ↔ ∃ p ∈ st.1[c].particles, p.id = y := by
            rw [((purged_perm hp).1.map Particle.id).mem_iff, List.mem_map]
          have hcc : y ∈ sharedIds st.1 ((c :: cs).take (k + 1)) ↔ (∃ p ∈ st.1[c].particles, p.id = y) ∨ y ∈ sharedIds st.1 (cs.take k) := by
            rw [List.take_succ_cons, mem_sharedIds, mem_sharedIds]
            constructor
            · rintro ⟨z, hz, t, ht, hr⟩
              rcases List.mem_cons.mp hz with rfl | hz
              · rw [List.getElem?_eq_getElem hlt] at ht
                cases ht
                exact Or.inl hr.2
              · exact Or.inr ⟨z, hz, t, ht, hr⟩
            · rintro (hr | ⟨z, hz, t, ht, hr⟩)
              · exact ⟨c, by simp, _, List.getElem?_eq_getElem hlt, hb, hr⟩
              · exact ⟨z, by simp [hz], t, ht, hr⟩
          rw [List.mem_append, List.mem_append, List.mem_append, hids, hcc]
          exact ⟨fun h => h.elim (fun h => h.elim (fun h => .inr (.inl h)) .inl) (fun h => .inr (.inr h)),
            fun h => h.elim (fun h => .inl (.inr h)) (fun h => h.elim (fun h => .inl (.inl h)) .inr)⟩
    · rw [if_neg hb]
      obtain ⟨st', e1, l1, l2, hout, hin⟩ := ih hn excl st (fun c' hc' => h1 c' (by simp [hc'])) h2
      refine ⟨st', e1, l1, l2, fun x hx => hout x (fun h => hx (by simp [h])), ?_⟩
      intro k x s d hk hs hd
      cases k with
      | zero =>
        simp at hk
        subst hk
        obtain ⟨a, b⟩ := hout c hc
        have es : s = st.1[c] := by rw [List.getElem?_eq_getElem hlt] at hs; exact (Option.some.inj hs).symm
        refine ⟨s, d, by rw [a]; exact hs, by rw [b]; exact hd, fun _ => ⟨rfl, rfl⟩, fun h => absurd h (by rw [es]; exact hb)⟩
      | succ k =>
        simp at hk
        obtain ⟨s1, d1, a, b, c1, c2⟩ := hin k x s d hk hs hd
        refine ⟨s1, d1, a, b, c1, fun h => purged_congr ?_ (c2 h)⟩
        intro y
        have hcc : y ∈ sharedIds st.1 ((c :: cs).take (k + 1)) ↔ y ∈ sharedIds st.1 (cs.take k) := by
          rw [List.take_succ_cons, mem_sharedIds, mem_sharedIds]
          constructor
          · rintro ⟨z, hz, t, ht, hr⟩
            rcases List.mem_cons.mp hz with rfl | hz
            · rw [List.getElem?_eq_getElem hlt] at ht
              cases ht
              exact absurd hr.1 hb
            · exact ⟨z, hz, t, ht, hr⟩
          · rintro ⟨z, hz, t, ht, hr⟩
            exact ⟨z, by simp [hz], t, ht, hr⟩
        simp only [List.mem_append, hcc]

/-- C66. For all groups without common members: nothing undefined happens, subhaloes outside of the groups and orphans are
unchanged, and every other member is `Purged` with respect to the particles of the members after it in its group. -/
theorem C66_purge (groups : List (List Nat)) (hn : groups.flatten.Nodup) (st : List (Sub K D) × List D)
    (h1 : ∀ c ∈ groups.flatten, c < st.1.length) (h2 : st.2.length = st.1.length) :
    ∃ st', purge groups st = .ok st' ∧ st'.1.length = st.1.length ∧ st'.2.length = st.2.length ∧
      (∀ c, c ∉ groups.flatten → st'.1[c]? = st.1[c]? ∧ st'.2[c]? = st.2[c]?) ∧
      ∀ g ∈ groups, ∀ (k c : Nat) (s : Sub K D) (d : D), g[k]? = some c → st.1[c]? = some s → st.2[c]? = some d →
        ∃ s' d', st'.1[c]? = some s' ∧ st'.2[c]? = some d' ∧ MemberPurged (laterIds st.1 g k) s d s' d' := by
  induction groups generalizing st with
  | nil => exact ⟨st, rfl, rfl, rfl, fun _ _ => ⟨rfl, rfl⟩, by simp⟩
  | cons g gs ih =>
    rw [List.flatten_cons, List.nodup_append'] at hn
    obtain ⟨n1, n2, n3⟩ := hn
    obtain ⟨st1, e1, l1, l2, hout1, hin1⟩ := purgeMembers_spec g.reverse (List.nodup_reverse.mpr n1) [] st
      (fun c hc => h1 c (by simp at hc; simp [hc])) h2
    obtain ⟨st2, e2, m1, m2, hout2, hin2⟩ := ih n2 st1 (fun c hc => by
      rw [l1]; exact h1 c (by rw [List.flatten_cons]; exact List.mem_append_right _ hc)) (by omega)
    refine ⟨st2, by rw [purge, e1, Outcome.bind_ok, e2], by omega, by omega, ?_, ?_⟩
    · intro c hc
      rw [List.flatten_cons, List.mem_append, not_or] at hc
      obtain ⟨a, b⟩ := hout2 c hc.2
      obtain ⟨a', b'⟩ := hout1 c (by simpa using hc.1)
      exact ⟨a.trans a', b.trans b'⟩
    · intro g' hg' k c s d hk hs hd
      rcases List.mem_cons.mp hg' with rfl | hg'
      · have hcg : c ∈ g' := List.mem_of_getElem? hk
        have hkl := (List.getElem?_eq_some_iff.mp hk).1
        obtain ⟨s', d', a, b, c1, c2⟩ := hin1 (g'.length - 1 - k) c s d (by
          rw [List.getElem?_reverse (by omega)]
          rw [show g'.length - 1 - (g'.length - 1 - k) = k by omega]; exact hk) hs hd
        obtain ⟨o1, o2⟩ := hout2 c (fun h => n3 hcg h)
        refine ⟨s', d', by rw [o1]; exact a, by rw [o2]; exact b, c1, fun h => purged_congr ?_ (c2 h)⟩
        intro y
        have : laterIds st.1 g' k = sharedIds st.1 (g'.drop (k + 1)) := rfl
        rw [this, List.nil_append, mem_sharedIds, mem_sharedIds]
        have hm : ∀ z, z ∈ g'.reverse.take (g'.length - 1 - k) ↔ z ∈ g'.drop (k + 1) := by
          intro z
          rw [List.take_reverse, List.mem_reverse, show g'.length - (g'.length - 1 - k) = k + 1 by omega]
        simp only [hm]
      · have hcf : c ∈ gs.flatten := List.mem_flatten.mpr ⟨g', hg', List.mem_of_getElem? hk⟩
        obtain ⟨o1, o2⟩ := hout1 c (fun h => n3 (by simpa using h) hcf)
        obtain ⟨s', d', a, b, c1, c2⟩ := hin2 g' hg' k c s d hk (by rw [o1]; exact hs) (by rw [o2]; exact hd)
        refine ⟨s', d', a, b, c1, fun h => ?_⟩
        have : laterIds st1.1 g' k = laterIds st.1 g' k := by
          show sharedIds st1.1 _ = sharedIds st.1 _
          apply sharedIds_congr
          intro z hz
          refine (hout1 z (fun h => n3 (by simpa using h) ?_)).1
          exact List.mem_flatten.mpr ⟨g', hg', List.mem_of_mem_drop hz⟩
        rw [← this]; exact c2 h

/-- C66. A purged subhalo has the same particles; all else of it is unchanged; and if any particle belongs to no smaller
subhalo, the one at the front does not. -/
theorem C66_front_is_own {ids : List Int} {s s' : Sub K D} {d d' : D} (h : Purged ids s d s' d') :
    s'.particles.Perm s.particles ∧ s' = { s with particles := s'.particles } ∧
    ((∃ p ∈ s.particles, p.id ∉ ids) → ∃ p, s'.particles[0]? = some p ∧ p.id ∉ ids) ∧
    ((∃ p, s.particles[0]? = some p ∧ d = p.data) → ∃ p, s'.particles[0]? = some p ∧ d' = p.data) := by
  refine ⟨(purged_perm h).1, (purged_perm h).2, ?_, ?_⟩
  · rintro ⟨p, hp, hn⟩
    rcases h with ⟨a, b, c⟩ | ⟨i, q, ps, ⟨_, ⟨q', hq', hq''⟩, _⟩, b, c, hq, _⟩
    · subst a
      obtain ⟨j, hj⟩ := List.mem_iff_getElem?.mp hp
      by_cases h0 : j = 0
      · subst h0; exact ⟨p, hj, hn⟩
      · obtain ⟨i, hi⟩ := firstOwn_exists ⟨j, p, h0, hj, hn⟩
        exact absurd hi (c i)
    · subst c
      refine ⟨q, hq, ?_⟩
      have := b.2.1
      rw [hq, hq'] at this
      cases this
      exact hq''
  · intro hd
    rcases h with ⟨a, b, c⟩ | ⟨i, q, ps, _, _, c, hq, hd'⟩
    · subst a b; exact hd
    · subst c; exact ⟨q, hq, hd'⟩

/-- C66, a finding: the most bound particle loses its place although it belongs to no smaller subhalo, whenever there is
one more particle of this kind. The comment in the code says that the most bound of the remaining particles is promoted. -/
theorem C66_most_bound_demoted {ids : List Int} {s s' : Sub K D} {d d' : D} (h : Purged ids s d s' d') (p q : Particle D) (j : Nat)
    (h0 : s.particles[0]? = some p) (hj : j ≠ 0) (hq : s.particles[j]? = some q) (hown : q.id ∉ ids)
    (hd : (s.particles.map Particle.id).Nodup) :
    ∃ p', s'.particles[0]? = some p' ∧ p'.id ≠ p.id ∧ d' = p'.data := by
  rcases h with ⟨a, b, c⟩ | ⟨i, r, ps, ⟨hi, ⟨r', hr, hr'⟩, _⟩, b, c, hq', hd'⟩
  · obtain ⟨i, hi⟩ := firstOwn_exists ⟨j, q, hj, hq, hown⟩
    exact absurd hi (c i)
  · subst c
    refine ⟨r, hq', ?_, hd'⟩
    have := b.2.1
    rw [hq', hr] at this
    cases this
    intro he
    have hi' := (List.getElem?_eq_some_iff.mp hr).1
    have e1 : (s.particles.map Particle.id)[i]? = (s.particles.map Particle.id)[0]? := by
      rw [List.getElem?_map, List.getElem?_map, hr, h0]; simp [he]
    exact hi ((List.getElem?_inj (by simpa using hi') hd).mp e1)

/-! Examples: a group of a central and one satellite. -/

def purgeSub (nb : Nat) (ids : List Int) : Sub Nat Nat :=
  { mbound := 0, lastMaxMass := 0, nbound := nb, particles := ids.map (fun i => ⟨i, i.toNat⟩) }

-- the front of the central, 1, belongs to the satellite; the first particle that does not, 3, takes its place; the satellite shares its particles with
-- nothing smaller, and yet its second particle takes the place of the first
example : (purge [[], [0, 1]] ([purgeSub 4 [1, 2, 3, 4], purgeSub 2 [1, 2]], [1, 1])).bind
    (fun st => .ok (st.1.map (fun s => s.particles.map Particle.id), st.2)) = .ok ([[3, 2, 1, 4], [2, 1]], [3, 2]) := by decide

-- a particle that is not bound may come to the front, and a bound one leave the bound part
example : (purge [[0, 1]] ([purgeSub 2 [1, 2, 3], purgeSub 2 [1, 2]], [1, 1])).bind
    (fun st => .ok (st.1.map (fun s => s.particles.map Particle.id), st.2)) = .ok ([[3, 2, 1], [2, 1]], [3, 2]) := by decide

/-- C66, a finding: the particle that comes to the front need not be bound. -/
theorem C66_unbound_front : ∃ (ids : List Int) (s s' : Sub Nat Nat) (d d' : Nat), Purged ids s d s' d' ∧ 1 < s.nbound ∧
    ∃ p, s'.particles[0]? = some p ∧ p ∉ s.particles.take s.nbound := by
  refine ⟨[1, 2], purgeSub 2 [1, 2, 3], purgeSub 2 [3, 2, 1], 1, 3, Or.inr ⟨2, ⟨3, 3⟩, [⟨3, 3⟩, ⟨2, 2⟩, ⟨1, 1⟩], ?_, ?_, rfl, rfl, rfl⟩,
    by decide, ⟨3, 3⟩, rfl, by decide⟩
  · refine ⟨by decide, ⟨⟨3, 3⟩, rfl, by decide⟩, ?_⟩
    intro j h0 hj p hp
    have : j = 1 := by omega
    subst this
    have : p = ⟨2, 2⟩ := by simpa [purgeSub] using hp.symm
    subst this
    decide
  · refine ⟨rfl, rfl, rfl, ?_⟩
    intro j h0 h2
    match j with
    | 0 => exact absurd rfl h0
    | 1 => rfl
    | 2 => exact absurd rfl h2
    | n + 3 => rfl

end HBT.Props
