import Verif.Lemmas.SystemState

set_option autoImplicit false

namespace Maliput.SysState
open Maliput StateVec TypeErasure Spec

variable {K V : Type}

theorem map_set_getElem {α : Type} {w : List α} {ps : List Nat} {xs : List α} (h : ps.map (w[·]?) = xs.map some) (hn : ps.Nodup)
    {k : Nat} (hk : k < ps.length) (y : α) : ps.map ((w.set ps[k] y)[·]?) = (xs.set k y).map some := by
  have hl : ps.length = xs.length := by simpa using congrArg List.length h
  have hw : ps[k] < w.length := mem_lt h _ (List.getElem_mem hk)
  apply List.ext_getElem
  · simpa using hl
  · intro i h1 h2
    simp only [List.length_map] at h1
    simp only [List.getElem_map, List.getElem_set]
    by_cases e : k = i
    · subst e
      rw [if_pos rfl, List.getElem?_set_self hw]
    · rw [if_neg e, List.getElem?_set_ne fun e' => e ((List.Nodup.getElem_inj_iff hn).1 e')]
      have := congrArg (·[i]?) h
      simp only [List.getElem?_map, List.getElem?_eq_getElem h1, List.getElem?_eq_getElem (hl ▸ h1), Option.map_some] at this
      injection this

theorem map_getElem {α : Type} {w : List α} {ps : List Nat} {xs : List α} (h : ps.map (w[·]?) = xs.map some)
    {k : Nat} (hk : k < ps.length) : ∃ x, w[ps[k]]? = some x ∧ xs[k]? = some x := by
  have hl : ps.length = xs.length := by simpa using congrArg List.length h
  have := congrArg (·[k]?) h
  simp only [List.getElem?_map, List.getElem?_eq_getElem hk, List.getElem?_eq_getElem (hl ▸ hk), Option.map_some] at this
  injection this with this
  exact ⟨_, this, List.getElem?_eq_getElem (hl ▸ hk)⟩

theorem typesIn_set {S : CType → Prop} {ps : List (Plain K V)} (h : TypesIn S ps) (i : Nat) {p : Plain K V}
    (hp : ∀ x ∈ p.abstract, S x.type) : TypesIn S (ps.set i p) := by
  intro q hq
  rcases List.mem_or_eq_of_mem_set hq with hq | rfl
  · exact h q hq
  · exact hp

theorem typesIn_meant {S : CType → Prop} {ps : List (Plain K V)} (h : TypesIn S ps) {op : Op K V} (ho : Op.TypesIn S op) :
    TypesIn S (meant ps op).1 := by
  cases op with
  | clone i =>
    rw [meant]
    split
    · rename_i p hp
      intro q hq
      rcases List.mem_append.1 hq with hq | hq
      · exact h q hq
      · rw [List.mem_singleton.1 hq]
        exact h p (List.mem_of_getElem? hp)
    · exact h
  | setFrom i j =>
    rw [meant]
    split
    · rename_i p o hp ho
      refine typesIn_set h i ?_
      have h1 := h p (List.mem_of_getElem? hp)
      have h2 := h o (List.mem_of_getElem? ho)
      unfold Plain.setFrom
      split
      · split
        · split
          · exact h1
          · intro x hx
            rcases copied_mem _ _ _ _ hx with hx | hx
            · exact h1 x hx
            · exact h2 x hx
        · exact h1
      · exact h1
    · exact h
  | setContinuous i xs =>
    rw [meant]
    split
    · rename_i p hp
      split
      · exact typesIn_set h i (h p (List.mem_of_getElem? hp))
      · exact h
    · exact h
  | setDiscrete i g xs =>
    rw [meant]
    split
    · rename_i p hp
      split
      · split
        · exact typesIn_set h i (h p (List.mem_of_getElem? hp))
        · exact h
      · exact h
    · exact h
  | setAbstract i k t x =>
    rw [meant]
    split
    · rename_i p hp
      split
      · refine typesIn_set h i ?_
        intro y hy
        rcases List.mem_or_eq_of_mem_set hy with hy | rfl
        · exact h p (List.mem_of_getElem? hp) y hy
        · exact ho
      · exact h
    · exact h

theorem exec_ok {armed : Bool} {hash : CType → BitVec 64} {S : CType → Prop} (ht : Told armed hash S) {w : World K V}
    {ps : List (Plain K V)} (hr : Refines w ps) (hs : TypesIn S ps) {op : Op K V} (hv : Valid ps op) (ho : Op.TypesIn S op) :
    ∃ w', w.exec armed hash op = (w', (meant ps op).2) ∧ Refines w' (meant ps op).1 := by
  obtain ⟨m, ss⟩ := w
  obtain ⟨ls, hls, ha, hl, hh⟩ := hr
  dsimp only at hls hh
  subst hls
  have pick : ∀ (i : Nat) p, ps[i]? = some p → ∃ l, ls[i]? = some l ∧ Holds m l p := by
    intro i p hp
    have hi : i < ls.length := by
      rw [hl]
      exact (List.getElem?_eq_some_iff.1 hp).1
    exact ⟨ls[i], List.getElem?_eq_getElem hi, hh i _ p (List.getElem?_eq_getElem hi) hp⟩
  have same : Refines ⟨m, ls.map Layout.state⟩ ps := ⟨ls, rfl, ha, hl, hh⟩
  cases op with
  | clone i =>
    have hi : i < ps.length := hv
    obtain ⟨l, hli, hH⟩ := pick i ps[i] (List.getElem?_eq_getElem hi)
    obtain ⟨vs, xs, h1, h2⟩ := clone_ok hH
    simp only [World.exec, List.getElem?_map, hli, Option.map_some, h1, meant, List.getElem?_eq_getElem hi]
    refine ⟨_, rfl, ls ++ [cloned m l], by simp, ?_, by simp [hl], ?_⟩
    · have live : ∀ k ∈ ls, (∀ a ∈ k.continuous :: k.discrete, a < m.vectors.length) ∧ ∀ a ∈ k.abstract, a < m.values.length := by
        intro k hk
        obtain ⟨j, hj, rfl⟩ := List.getElem_of_mem hk
        have hH := hh j ls[j] ps[j] (List.getElem?_eq_getElem hj) (List.getElem?_eq_getElem (hl ▸ hj))
        refine ⟨?_, mem_lt hH.abstract⟩
        intro a ha'
        rcases List.mem_cons.1 ha' with rfl | ha'
        · exact (List.getElem?_eq_some_iff.1 hH.continuous).1
        · exact mem_lt hH.discrete a ha'
      exact apart_cloned ha l (fun k hk => (live k hk).1) (fun k hk => (live k hk).2)
    · intro j k q hj hq
      dsimp only
      by_cases hjl : j < ls.length
      · rw [List.getElem?_append_left hjl] at hj
        rw [List.getElem?_append_left (hl ▸ hjl)] at hq
        have hH := hh j k q hj hq
        refine ⟨?_, hH.nq, hH.nv, hH.nz, hH.velocities, map_append_left _ hH.discrete, map_append_left _ hH.abstract⟩
        rw [List.getElem?_append_left (List.getElem?_eq_some_iff.1 hH.continuous).1]
        exact hH.continuous
      · have hje : j = ls.length := by
          have := (List.getElem?_eq_some_iff.1 hj).1
          simp at this
          omega
        rw [hje, List.getElem?_append_right (by omega)] at hj
        rw [hje, hl, List.getElem?_append_right (by omega)] at hq
        simp at hj hq
        subst hj hq
        exact h2
  | setFrom i j =>
    obtain ⟨p, o, hp, hoo, hab⟩ := hv
    obtain ⟨l, hli, hH⟩ := pick i p hp
    obtain ⟨k, hkj, hK⟩ := pick j o hoo
    obtain ⟨m', h1, h2, h3, h4⟩ := setFrom_ok ht hH hK (apart_one ha hli).1 (apart_one ha hli).2
      (by
        by_cases hij : i = j
        · left
          subst hij
          rw [hli] at hkj
          injection hkj
        · exact .inr (apart_two ha hli hkj hij))
      hab (hs p (List.mem_of_getElem? hp)) (hs o (List.mem_of_getElem? hoo))
    simp only [World.exec, List.getElem?_map, hli, hkj, Option.map_some, h1, meant, hp, hoo]
    exact ⟨_, rfl, refines_set ha hl hh hli h2 h3 h4⟩
  | setContinuous i xs =>
    have hi : i < ps.length := hv
    obtain ⟨l, hli, hH⟩ := pick i ps[i] (List.getElem?_eq_getElem hi)
    have hval := valuesAt_some hH.continuous
    have e1 := hH.nq; have e2 := hH.nv; have e3 := hH.nz
    simp only [World.exec, List.getElem?_map, hli, Option.map_some, meant, List.getElem?_eq_getElem hi]
    simp only [Layout.state, Vec.setFromVector, Vec.size, hval, List.length_append]
    by_cases hx : xs.length = ps[i].q.length + ps[i].v.length + ps[i].z.length
    · rw [if_neg (by omega), if_pos hx]
      refine ⟨_, rfl, refines_set ha hl hh hli (p' := { ps[i] with
          q := xs.take ps[i].q.length
          v := (xs.drop ps[i].q.length).take ps[i].v.length
          z := xs.drop (ps[i].q.length + ps[i].v.length) }) ?_ ?_ (fun _ _ => rfl)⟩
      · have hn := (apart_one ha hli).1
        rw [List.nodup_cons] at hn
        refine ⟨?_, by simp; omega, by simp; omega, by simp; omega, hH.velocities, ?_, hH.abstract⟩
        · dsimp only
          rw [List.getElem?_set_self (List.getElem?_eq_some_iff.1 hH.continuous).1, ← List.drop_drop, List.append_assoc,
            List.take_append_drop, List.take_append_drop]
        · dsimp only
          rw [map_set_notMem _ hn.1]
          exact hH.discrete
      · intro a ha'
        exact List.getElem?_set_ne fun e => ha' (by simp [e])
    · rw [if_pos (by omega), if_neg hx]
      exact ⟨_, rfl, same⟩
  | setDiscrete i g xs =>
    have hi : i < ps.length := hv
    obtain ⟨l, hli, hH⟩ := pick i ps[i] (List.getElem?_eq_getElem hi)
    have hld : l.discrete.length = ps[i].discrete.length := by simpa using congrArg List.length hH.discrete
    simp only [World.exec, List.getElem?_map, hli, Option.map_some, meant, List.getElem?_eq_getElem hi]
    simp only [Layout.state, Discrete.setValue, Discrete.getVector, throwUnless]
    by_cases hg : 0 ≤ g ∧ g < ps[i].discrete.length
    · have hg' : 0 ≤ g ∧ g < l.discrete.length := by omega
      have hgl : g.toNat < l.discrete.length := by omega
      obtain ⟨y, hy1, hy2⟩ := map_getElem hH.discrete hgl
      have hy3 := valuesAt_some hy1
      have hy4 : ps[i].discrete.getD g.toNat [] = y := by
        rw [List.getD_eq_getElem?_getD, hy2]; rfl
      simp only [hg, hg', and_self, decide_true, if_true, bind, Except.bind, List.getElem?_eq_getElem hgl, Vec.setFromVector,
        Vec.size, hy3, hy4]
      by_cases hx : y.length = xs.length
      · rw [if_neg (by omega), if_pos hx]
        have hn := (apart_one ha hli).1
        rw [List.nodup_cons] at hn
        refine ⟨_, rfl, refines_set ha hl hh hli (p' := { ps[i] with discrete := ps[i].discrete.set g.toNat xs }) ?_ ?_
          (fun _ _ => rfl)⟩
        · refine ⟨?_, hH.nq, hH.nv, hH.nz, hH.velocities, map_set_getElem hH.discrete hn.2 hgl xs, hH.abstract⟩
          dsimp only
          rw [List.getElem?_set_ne (by intro e; exact hn.1 (e ▸ List.getElem_mem hgl))]
          exact hH.continuous
        · intro a ha'
          exact List.getElem?_set_ne (by intro e; exact ha' (e ▸ List.mem_cons_of_mem _ (List.getElem_mem hgl)))
      · rw [if_pos (by omega), if_neg hx]
        exact ⟨_, rfl, same⟩
    · have hg' : ¬(0 ≤ g ∧ g < l.discrete.length) := by omega
      simp only [hg, hg', decide_false, Bool.false_eq_true, if_false, bind, Except.bind]
      exact ⟨_, rfl, same⟩
  | setAbstract i k t x =>
    obtain ⟨p, hp, hk0, hk1⟩ := hv
    obtain ⟨l, hli, hH⟩ := pick i p hp
    have hla : l.abstract.length = p.abstract.length := by simpa using congrArg List.length hH.abstract
    have hkl : k.toNat < l.abstract.length := by omega
    obtain ⟨y, hy1, hy2⟩ := map_getElem hH.abstract hkl
    have hg := getValue_some (armed := armed) l.abstract hkl
    rw [show ((k.toNat : Nat) : Int) = k by omega] at hg
    have hS : S y.type := hs p (List.mem_of_getElem? hp) y (List.mem_of_getElem? hy2)
    simp only [World.exec, List.getElem?_map, hli, Option.map_some, meant, hp]
    simp only [Layout.state, hg, hy1, TypeErasure.setValue, told_cast ht ho hS, hy2, Option.map_some, Option.some.injEq]
    by_cases hty : y.type = t
    · rw [if_pos hty.symm, if_pos hty]
      refine ⟨_, rfl, ?_⟩
      refine refines_set ha hl hh hli (p' := { p with abstract := p.abstract.set k.toNat ⟨t, x⟩ }) ?_ (fun _ _ => rfl) ?_
      · refine ⟨hH.continuous, hH.nq, hH.nv, hH.nz, hH.velocities, hH.discrete, ?_⟩
        have := map_set_getElem hH.abstract (apart_one ha hli).2 hkl ⟨t, x⟩
        rw [← hty] at this ⊢
        exact this
      · intro a ha'
        exact List.getElem?_set_ne (by intro e; exact ha' (e ▸ List.getElem_mem hkl))
    · rw [if_neg (Ne.symm hty), if_neg hty]
      exact ⟨_, rfl, same⟩

theorem run_ok {armed : Bool} {hash : CType → BitVec 64} {S : CType → Prop} (ht : Told armed hash S) {w : World K V}
    {ps : List (Plain K V)} (hr : Refines w ps) (hs : TypesIn S ps) (ops : List (Op K V)) (hv : AllValid ps ops)
    (ho : ∀ o ∈ ops, Op.TypesIn S o) :
    ∃ w', w.run armed hash ops = (w', (meantRun ps ops).2) ∧ Refines w' (meantRun ps ops).1 := by
  induction ops generalizing w ps with
  | nil => exact ⟨w, rfl, hr⟩
  | cons o os ih =>
    obtain ⟨w1, h1, h2⟩ := exec_ok ht hr hs hv.1 (ho o (by simp))
    obtain ⟨w2, h3, h4⟩ := ih h2 (typesIn_meant hs (ho o (by simp))) hv.2 fun o' h => ho o' (by simp [h])
    refine ⟨w2, ?_, h4⟩
    rw [World.run, h1, h3]
    rfl

end Maliput.SysState
