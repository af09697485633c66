import Verif.Model.Merge
import Verif.Lemmas.Mask
import Verif.Lemmas.Refine
/-!
# Helper lemmas: merging
-/
namespace HBT
open HBT.Model HBT.Spec HBT.Spec.Forest
variable {K D E : Type}

/-- Trapped and alive. -/
def Dying (s : Sub K D) : Prop := s.sinkTrackId ≠ nullTrack ∧ s.snapDeath = nullSnap

/-- A subhalo that has been merged away. -/
def mergedAway (mass : D → K) (snap : Int) (p : Particle D) (s : Sub K D) : Sub K D :=
  { s with particles := [p], nbound := 1, mbound := mass p.data, snapDeath := snap }

/-- A sink with more particles. -/
@[simps] def enlarged (extra : List (Particle D)) (n : Nat) (s : Sub K D) : Sub K D :=
  { s with particles := s.particles ++ extra, nbound := n }

theorem mergeRun [MassSum K] (mass : D → K) (snap : Int) (anc : Nat → Nat → Prop)
    (htrans : ∀ a b c, anc a b → anc b c → anc a c) :
    ∀ (L : List Nat) (st : List (Sub K D)), L.Nodup → (∀ i ∈ L, i < st.length) →
    (∀ (pre : List Nat) (i : Nat) (post : List Nat) (s : Sub K D), L = pre ++ i :: post → st[i]? = some s → Dying s → 1 < s.nbound ∧ s.particles ≠ [] ∧
      ∃ p : Nat, p ∈ post ∧ s.sinkTrackId = (p : Int) ∧ anc p i) →
    ∃ st', runAll (mergeOne mass snap) L st = .ok st' ∧ st'.length = st.length ∧
      (∀ x, x ∉ L → st'[x]? = st[x]?) ∧
      (∀ i ∈ L, ∀ s, st[i]? = some s → Dying s → ∃ p rest, s.particles = p :: rest ∧ st'[i]? = some (mergedAway mass snap p s)) ∧
      (∀ i ∈ L, ∀ s, st[i]? = some s → ¬ Dying s → ∃ extra n, st'[i]? = some (enlarged extra n s) ∧ s.nbound ≤ n ∧
        (extra.map Particle.id).Nodup ∧
        (∀ p ∈ extra, p.id ∉ sourceIds s ∧ ∃ j ∈ L, ∃ t, st[j]? = some t ∧ Dying t ∧ anc i j ∧ p ∈ t.particles) ∧
        ((∀ j ∈ L, ∀ t, st[j]? = some t → Dying t → t.sinkTrackId ≠ (i : Int)) → extra = [] ∧ n = s.nbound)) ∧
      (∀ i ∈ L, ∀ s, st[i]? = some s → ∀ x ∈ sourceIds s, ∃ q ∈ L, ∃ t t', st[q]? = some t ∧ ¬ Dying t ∧ st'[q]? = some t' ∧
        (q = i ∨ anc q i) ∧ x ∈ sourceIds t') := by
  intro L
  induction L with
  | nil =>
    intro st _ _ _
    exact ⟨st, rfl, rfl, fun _ _ => rfl, fun i hi => (by cases hi), fun i hi => (by cases hi), fun i hi => (by cases hi)⟩
  | cons i L ih =>
    intro st hn hlt hd
    rw [List.nodup_cons] at hn
    have hi := hlt i (by simp)
    obtain ⟨s, hs⟩ : ∃ s, st[i]? = some s := ⟨_, List.getElem?_eq_getElem hi⟩
    by_cases hdy : Dying s
    · obtain ⟨hb, hne, p, hp, hsink, hanc⟩ := hd [] i L s rfl hs hdy
      obtain ⟨a, rest, hpart⟩ := List.exists_cons_of_ne_nil hne
      have hpi : p ≠ i := by rintro rfl; exact hn.1 hp
      have hpl := hlt p (by simp [hp])
      obtain ⟨h, hh⟩ : ∃ h, st[p]? = some h := ⟨_, List.getElem?_eq_getElem hpl⟩
      set new := (maskParticles (h.particles.map Particle.id) s.particles).2 with hnew
      set st1 := (st.set p (enlarged new (h.nbound + s.nbound) h)).set i (mergedAway mass snap a s) with hst1
      have e1 : mergeOne mass snap i st = .ok st1 := by
        rw [mergeOne, get_some hs, Outcome.bind_ok, if_pos (show _ ∧ _ from hdy), if_neg (by rw [hsink]; exact_mod_cast hpi), hsink,
          getI_some hh, Outcome.bind_ok, mergeTo, if_neg (by omega)]
        simp only [hpart]
        rw [Outcome.bind_ok, Int.toNat_natCast, Outcome.set_of_lt hpl, Outcome.bind_ok, Outcome.set_of_lt (by rw [List.length_set]; exact hi)]
        simp only [hst1, hnew, hpart]
        rfl
      have hl1 : st1.length = st.length := by rw [hst1, List.length_set, List.length_set]
      have g1 : st1[i]? = some (mergedAway mass snap a s) := List.getElem?_set_self (by rw [List.length_set]; exact hi)
      have g2 : st1[p]? = some (enlarged new (h.nbound + s.nbound) h) := by
        rw [hst1, List.getElem?_set_ne (Ne.symm hpi), List.getElem?_set_self hpl]
      have g3 : ∀ x, x ≠ i → x ≠ p → st1[x]? = st[x]? := fun x hx hx' => by
        rw [hst1, List.getElem?_set_ne (Ne.symm hx), List.getElem?_set_ne (Ne.symm hx')]
      -- what the remaining ones were
      have hback : ∀ j ∈ L, ∀ t1, st1[j]? = some t1 → ∃ t, st[j]? = some t ∧ (Dying t ↔ Dying t1) ∧ t.sinkTrackId = t1.sinkTrackId ∧
          t.nbound ≤ t1.nbound ∧ (t.particles ≠ [] → t1.particles ≠ []) ∧
          ((j ≠ p ∧ t1 = t) ∨ (j = p ∧ t = h ∧ t1 = enlarged new (h.nbound + s.nbound) h)) := by
        intro j hj t1 ht1
        have hji : j ≠ i := by rintro rfl; exact hn.1 hj
        by_cases hjp : j = p
        · subst hjp
          rw [g2] at ht1
          cases ht1
          refine ⟨h, hh, Iff.rfl, rfl, by simp, ?_, Or.inr ⟨rfl, rfl, rfl⟩⟩
          intro h1 h2
          simp only [enlarged_particles, List.append_eq_nil_iff] at h2
          exact h1 h2.1
        · rw [g3 j hji hjp] at ht1
          exact ⟨t1, ht1, Iff.rfl, rfl, le_refl _, id, Or.inl ⟨hjp, rfl⟩⟩
      obtain ⟨st2, e2, l2, f2, d2, q2, c2⟩ := ih st1 hn.2 (fun j hj => by rw [hl1]; exact hlt j (by simp [hj])) (by
        intro pre j post t1 hpp ht1 hdt
        have hjL : j ∈ L := by rw [hpp]; simp
        obtain ⟨t, h1, h2, h3, h4, h5, _⟩ := hback j hjL t1 ht1
        obtain ⟨a1, a2, a3⟩ := hd (i :: pre) j post t (by rw [hpp]; rfl) h1 (h2.2 hdt)
        exact ⟨by omega, h5 a2, by rw [← h3]; exact a3⟩)
      have hnewin : ∀ x, x ∈ new.map Particle.id ↔ x ∈ sourceIds s ∧ x ∉ h.particles.map Particle.id := by
        intro x
        exact (maskParticles_spec s.particles _).2.2.1 x
      have hnewsub : ∀ x ∈ new, x ∈ s.particles := by
        intro x hx
        exact (maskParticles_spec s.particles (h.particles.map Particle.id)).1.subset hx
      have hnewnd : (new.map Particle.id).Nodup := (maskParticles_spec s.particles _).2.1
      refine ⟨st2, by rw [runAll, e1, Outcome.bind_ok, e2], by rw [l2, hl1], ?_, ?_, ?_, ?_⟩
      · intro x hx
        rw [List.mem_cons, not_or] at hx
        rw [f2 x hx.2, g3 x hx.1 (by rintro rfl; exact hx.2 hp)]
      · intro j hj u hu hdu
        rw [List.mem_cons] at hj
        rcases hj with rfl | hj
        · rw [hs] at hu
          cases hu
          exact ⟨a, rest, hpart, by rw [f2 j hn.1, g1]⟩
        · have hji : j ≠ i := by rintro rfl; exact hn.1 hj
          by_cases hjp : j = p
          · subst hjp
            rw [hh] at hu
            cases hu
            obtain ⟨b, r, b1, b2⟩ := d2 j hj _ g2 hdu
            obtain ⟨_, hne', _⟩ : 1 < h.nbound ∧ h.particles ≠ [] ∧ True := by
              obtain ⟨pre, post, hpp⟩ := List.append_of_mem hj
              obtain ⟨a1, a2, _⟩ := hd (i :: pre) j post h (by rw [hpp]; rfl) hh hdu
              exact ⟨a1, a2, trivial⟩
            obtain ⟨b', r', hb'⟩ := List.exists_cons_of_ne_nil hne'
            simp only [enlarged_particles, hb', List.cons_append, List.cons.injEq] at b1
            obtain ⟨rfl, _⟩ := b1
            exact ⟨b', r', hb', b2⟩
          · exact d2 j hj u (by rw [g3 j hji hjp, hu]) hdu
      · intro j hj u hu hdu
        rw [List.mem_cons] at hj
        rcases hj with rfl | hj
        · rw [hs] at hu
          cases hu
          exact absurd hdy hdu
        · have hji : j ≠ i := by rintro rfl; exact hn.1 hj
          -- origin of particles in the shorter run
          have horig : ∀ (q : Nat) (x : Particle D), (∃ k ∈ L, ∃ t, st1[k]? = some t ∧ Dying t ∧ anc q k ∧ x ∈ t.particles) →
              ∃ k ∈ i :: L, ∃ t, st[k]? = some t ∧ Dying t ∧ anc q k ∧ x ∈ t.particles := by
            rintro q x ⟨k, hk, t1, ht1, hdt, ha, hx⟩
            obtain ⟨t, h1, h2, _, _, _, h6⟩ := hback k hk t1 ht1
            rcases h6 with ⟨_, rfl⟩ | ⟨rfl, rfl, rfl⟩
            · exact ⟨k, by simp [hk], t1, h1, hdt, ha, hx⟩
            · simp only [enlarged_particles, List.mem_append] at hx
              rcases hx with hx | hx
              · exact ⟨k, by simp [hk], t, h1, h2.2 hdt, ha, hx⟩
              · exact ⟨i, by simp, s, hs, hdy, htrans _ _ _ ha hanc, hnewsub x hx⟩
          by_cases hjp : j = p
          · subst hjp
            rw [hh] at hu
            cases hu
            obtain ⟨extra, n, b1, b2, b3, b4, b5⟩ := q2 j hj _ g2 hdu
            refine ⟨new ++ extra, n, ?_, ?_, ?_, ?_, ?_⟩
            · rw [b1]
              simp [enlarged]
            · simp only [enlarged_nbound] at b2
              omega
            · rw [List.map_append, List.nodup_append]
              refine ⟨hnewnd, b3, ?_⟩
              rintro x hx y hy rfl
              obtain ⟨z, hz, rfl⟩ := List.mem_map.1 hy
              refine (b4 z hz).1 ?_
              simp only [sourceIds, enlarged_particles, List.map_append, List.mem_append]
              exact Or.inr hx
            · intro x hx
              rw [List.mem_append] at hx
              rcases hx with hx | hx
              · exact ⟨((hnewin x.id).1 (List.mem_map_of_mem hx)).2, i, by simp, s, hs, hdy, hanc, hnewsub x hx⟩
              · obtain ⟨c1, c2⟩ := b4 x hx
                refine ⟨fun hc => c1 ?_, horig _ x c2⟩
                simp only [sourceIds, enlarged_particles, List.map_append, List.mem_append]
                exact Or.inl hc
            · intro hno
              exact absurd hsink (hno i (by simp) s hs hdy)
          · obtain ⟨extra, n, b1, b2, b3, b4, b5⟩ := q2 j hj u (by rw [g3 j hji hjp, hu]) hdu
            refine ⟨extra, n, b1, b2, b3, fun x hx => ⟨(b4 x hx).1, horig _ x (b4 x hx).2⟩, fun hno => b5 ?_⟩
            intro k hk t1 ht1 hdt
            obtain ⟨t, h1, h2, h3, _⟩ := hback k hk t1 ht1
            rw [← h3]
            exact hno k (by simp [hk]) t h1 (h2.2 hdt)
      · -- conservation
        have hstep : ∀ (q0 : Nat) (x : Int) (k : Nat), k ∈ L → (∃ t1, st1[k]? = some t1 ∧ x ∈ sourceIds t1) → (k = q0 ∨ anc k q0) →
            ∃ q ∈ i :: L, ∃ t t', st[q]? = some t ∧ ¬ Dying t ∧ st2[q]? = some t' ∧ (q = q0 ∨ anc q q0) ∧ x ∈ sourceIds t' := by
          rintro q0 x k hk ⟨t1, ht1, hx⟩ hkq
          obtain ⟨q, hq, t, t', a1, a2, a3, a4, a5⟩ := c2 k hk t1 ht1 x hx
          obtain ⟨u, h1, h2, _⟩ := hback q hq t a1
          refine ⟨q, by simp [hq], u, t', h1, fun h => a2 (h2.1 h), a3, ?_, a5⟩
          rcases a4 with rfl | a4
          · exact hkq
          · rcases hkq with rfl | hkq
            · exact Or.inr a4
            · exact Or.inr (htrans _ _ _ a4 hkq)
        intro j hj u hu x hx
        rw [List.mem_cons] at hj
        rcases hj with rfl | hj
        · rw [hs] at hu
          cases hu
          refine hstep j x p hp ⟨_, g2, ?_⟩ (Or.inr hanc)
          simp only [sourceIds, enlarged_particles, List.map_append, List.mem_append]
          by_cases hxh : x ∈ h.particles.map Particle.id
          · exact Or.inl hxh
          · exact Or.inr ((hnewin x).2 ⟨hx, hxh⟩)
        · have hji : j ≠ i := by rintro rfl; exact hn.1 hj
          refine hstep j x j hj ?_ (Or.inl rfl)
          by_cases hjp : j = p
          · subst hjp
            rw [hh] at hu
            cases hu
            refine ⟨_, g2, ?_⟩
            simp only [sourceIds, enlarged_particles, List.map_append, List.mem_append]
            exact Or.inl hx
          · exact ⟨u, by rw [g3 j hji hjp, hu], hx⟩
    · have e1 : mergeOne mass snap i st = .ok st := by
        rw [mergeOne, get_some hs, Outcome.bind_ok]
        exact if_neg hdy
      obtain ⟨st2, e2, l2, f2, d2, q2, c2⟩ := ih st hn.2 (fun j hj => hlt j (by simp [hj])) (by
        intro pre j post t hpp ht hdt
        exact hd (i :: pre) j post t (by rw [hpp]; rfl) ht hdt)
      refine ⟨st2, by rw [runAll, e1, Outcome.bind_ok, e2], l2, ?_, ?_, ?_, ?_⟩
      · intro x hx
        rw [List.mem_cons, not_or] at hx
        exact f2 x hx.2
      · intro j hj u hu hdu
        rw [List.mem_cons] at hj
        rcases hj with rfl | hj
        · rw [hs] at hu
          cases hu
          exact absurd hdu hdy
        · exact d2 j hj u hu hdu
      · intro j hj u hu hdu
        rw [List.mem_cons] at hj
        rcases hj with rfl | hj
        · rw [hs] at hu
          cases hu
          refine ⟨[], s.nbound, ?_, le_refl _, List.nodup_nil, fun p hp => (by cases hp), fun _ => ⟨rfl, rfl⟩⟩
          rw [f2 j hn.1, hs]
          simp [enlarged]
        · obtain ⟨extra, n, b1, b2, b3, b4, b5⟩ := q2 j hj u hu hdu
          refine ⟨extra, n, b1, b2, b3, fun x hx => ⟨(b4 x hx).1, ?_⟩, fun hno => b5 (fun k hk => hno k (by simp [hk]))⟩
          obtain ⟨k, hk, r⟩ := (b4 x hx).2
          exact ⟨k, by simp [hk], r⟩
      · intro j hj u hu x hx
        rw [List.mem_cons] at hj
        rcases hj with rfl | hj
        · rw [hs] at hu
          cases hu
          exact ⟨j, by simp, s, s, hs, hdy, by rw [f2 j hn.1, hs], Or.inl rfl, hx⟩
        · obtain ⟨q, hq, r⟩ := c2 j hj u hu x hx
          exact ⟨q, by simp [hq], r⟩

end HBT
