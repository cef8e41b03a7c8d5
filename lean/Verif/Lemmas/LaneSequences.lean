import Mathlib.Algebra.Order.BigOperators.Group.List
import Mathlib.Data.List.Nodup
import Mathlib.Data.List.Perm.Subperm
import Mathlib.Tactic.Linarith
import Verif.Spec.LaneSequences
import Verif.Lemmas.Regions

set_option autoImplicit false

namespace Maliput.Routing
open Maliput.Topo

theorem foldlM_option {α β : Type} (f : α → Option (List β)) (g : α → List β) (xs : List α)
    (h : ∀ x ∈ xs, f x = some (g x)) (acc : List β)
    (step : List β → α → Option (List β)) (hs : ∀ acc x, step acc x = (f x).map (acc ++ ·)) :
    xs.foldlM step acc = some (acc ++ xs.flatMap g) := by
  induction xs generalizing acc with
  | nil => simp
  | cons x xs ih =>
    rw [List.foldlM_cons, hs, h x (by simp)]
    simp only [Option.map_some, Option.bind_eq_bind, Option.bind_some]
    rw [ih (fun y hy => h y (by simp [hy]))]
    simp [List.flatMap_cons]

theorem follows_iff (g : LaneGraph) (a b : Nat) : Follows g a b ↔ b ∈ lanesToCheck g a := by
  constructor
  · rintro ⟨w, w', h⟩
    cases w
    · exact List.mem_append.2 (.inl (List.mem_map.2 ⟨_, h, rfl⟩))
    · exact List.mem_append.2 (.inr (List.mem_map.2 ⟨_, h, rfl⟩))
  · intro h
    rcases List.mem_append.1 h with h | h <;> obtain ⟨⟨l, w'⟩, hm, rfl⟩ := List.mem_map.1 h
    · exact ⟨.start, w', hm⟩
    · exact ⟨.finish, w', hm⟩

/-- What the helper finds. -/
def Found (g : LaneGraph) (end_ : Nat) (maxLength : ℚ) (start : Nat) (visited : List Nat) (cur : ℚ)
    (p : List Nat) : Prop :=
  ∃ q, p = start :: q ∧ q.getLast? = some end_ ∧ (start :: q).IsChain (Follows g) ∧ q.Nodup ∧
    (∀ x ∈ q, x ∉ visited) ∧ cur + (q.dropLast.map g.length).sum ≤ maxLength

theorem helper_spec {g : LaneGraph} (hg : g.WellFormed) {end_ : Nat} (hend : end_ ∈ g.lanes) (maxLength : ℚ) :
    ∀ (n : Nat) (start : Nat) (visited : List Nat) (cur : ℚ), start ∈ g.lanes → visited.Nodup →
      visited ⊆ g.lanes → g.lanes.length < n + visited.length →
      ∃ r, findLaneSequencesHelper g end_ maxLength n start visited cur = some r ∧
        ∀ p, p ∈ r ↔ Found g end_ maxLength start visited cur p := by
  intro n
  induction n with
  | zero =>
    intro start visited cur _ hv hsub hlt
    have := (List.Nodup.subperm hv hsub).length_le
    omega
  | succ n ih =>
    intro start visited cur hstart hv hsub hlt
    have hsum : ∀ q : List Nat, 0 ≤ (q.map g.length).sum := fun q =>
      List.sum_nonneg (by simpa using fun a _ => hg.lengthNonneg a)
    unfold findLaneSequencesHelper
    by_cases hc : cur > maxLength
    · rw [if_pos hc]
      refine ⟨[], rfl, fun p => ⟨by simp, ?_⟩⟩
      rintro ⟨q, -, -, -, -, -, hb⟩
      have := hsum q.dropLast
      linarith
    rw [if_neg hc]
    -- the result for one next lane
    let f : Nat → Option (List (List Nat)) := fun next =>
      if next ∈ visited then some []
      else if g.id next = g.id end_ then some [[start, end_]]
      else (findLaneSequencesHelper g end_ maxLength n next (visited ++ [next]) (cur + g.length next)).map
        (fun subs => subs.map (start :: ·))
    have hmemlanes : ∀ x ∈ lanesToCheck g start, x ∈ g.lanes := by
      intro x hx
      obtain ⟨w, w', h⟩ := (follows_iff g start x).2 hx
      exact hg.closed start hstart w _ h
    have hf : ∀ x ∈ lanesToCheck g start, ∃ r, f x = some r ∧
        ∀ p, p ∈ r ↔ (Found g end_ maxLength start visited cur p ∧ p[1]? = some x) := by
      intro x hx
      by_cases hxv : x ∈ visited
      · refine ⟨[], by simp [f, hxv], fun p => ⟨by simp, ?_⟩⟩
        rintro ⟨⟨q, rfl, -, -, -, hnv, -⟩, h1⟩
        exact absurd hxv (hnv x (by
          rw [List.getElem?_cons_succ] at h1
          exact List.mem_of_getElem? h1))
      by_cases hxe : x = end_
      · subst hxe
        refine ⟨[[start, x]], by simp [f, hxv], fun p => ?_⟩
        constructor
        · intro hp
          rw [List.mem_singleton] at hp
          subst hp
          refine ⟨⟨[x], rfl, by simp, ?_, by simp, ?_, ?_⟩, by simp⟩
          · simpa using (follows_iff g start x).2 hx
          · intro y hy; rw [List.mem_singleton] at hy; subst hy; exact hxv
          · simp; linarith
        · rintro ⟨⟨q, rfl, hlast, -, hnd, -, -⟩, h1⟩
          rw [List.getElem?_cons_succ] at h1
          match q, h1 with
          | y :: q', h1 =>
            simp only [List.getElem?_cons_zero, Option.some.injEq] at h1
            subst h1
            match q' with
            | [] => simp
            | z :: q'' =>
              have : y ∈ z :: q'' := by
                rw [List.getLast?_cons_cons] at hlast
                exact List.mem_of_getLast? hlast
              exact absurd this (List.nodup_cons.1 hnd).1
      · have hid : g.id x ≠ g.id end_ := fun h => hxe (hg.idInjective x (hmemlanes x hx) end_ hend h)
        have hv' : (visited ++ [x]).Nodup := by
          rw [List.nodup_append]
          refine ⟨hv, by simp, ?_⟩
          intro a ha b hb hab
          rw [List.mem_singleton] at hb
          subst hb; subst hab; exact hxv ha
        obtain ⟨r, hr, hrs⟩ := ih x (visited ++ [x]) (cur + g.length x) (hmemlanes x hx) hv'
          (by intro y hy
              rcases List.mem_append.1 hy with h | h
              · exact hsub h
              · rw [List.mem_singleton] at h; subst h; exact hmemlanes _ hx)
          (by simp; omega)
        refine ⟨r.map (start :: ·), by simp [f, hxv, hid, hr], fun p => ?_⟩
        rw [List.mem_map]
        constructor
        · rintro ⟨p', hp', rfl⟩
          obtain ⟨q, rfl, hlast, hch, hnd, hnv, hb⟩ := (hrs p').1 hp'
          have hq : q ≠ [] := by rintro rfl; simp at hlast
          obtain ⟨y, q', rfl⟩ := List.exists_cons_of_ne_nil hq
          refine ⟨⟨x :: y :: q', rfl, ?_, ?_, ?_, ?_, ?_⟩, by simp⟩
          · rw [List.getLast?_cons_cons]; exact hlast
          · exact List.IsChain.cons_cons ((follows_iff g start x).2 hx) hch
          · refine List.nodup_cons.2 ⟨fun h => hnv x h (by simp), hnd⟩
          · intro z hz
            rcases List.mem_cons.1 hz with rfl | hz
            · exact hxv
            · exact fun h => hnv z hz (by simp [h])
          · rw [List.dropLast_cons_cons, List.map_cons, List.sum_cons]
            linarith
        · rintro ⟨⟨q, rfl, hlast, hch, hnd, hnv, hb⟩, h1⟩
          rw [List.getElem?_cons_succ] at h1
          match q, h1 with
          | y :: q', h1 =>
            simp only [List.getElem?_cons_zero, Option.some.injEq] at h1
            subst h1
            match q' with
            | [] => simp at hlast; exact absurd hlast hxe
            | z :: q'' =>
              refine ⟨y :: z :: q'', (hrs _).2 ⟨z :: q'', rfl, ?_, ?_, ?_, ?_, ?_⟩, rfl⟩
              · rwa [List.getLast?_cons_cons] at hlast
              · exact (List.isChain_cons_cons.1 hch).2
              · exact (List.nodup_cons.1 hnd).2
              · intro u hu
                rw [List.mem_append, List.mem_singleton]
                rintro (h | rfl)
                · exact hnv u (by simp [hu]) h
                · exact (List.nodup_cons.1 hnd).1 hu
              · rw [List.dropLast_cons_cons, List.map_cons, List.sum_cons] at hb
                linarith
    have hg' : ∀ x ∈ lanesToCheck g start, f x = some ((f x).getD []) := by
      intro x hx
      obtain ⟨r, hr, -⟩ := hf x hx
      rw [hr]; rfl
    refine ⟨_, foldlM_option f (fun x => (f x).getD []) _ hg' [] _ ?_, ?_⟩
    · intro acc x
      by_cases hxv : x ∈ visited
      · simp [f, hxv]
      by_cases hid : g.id x = g.id end_
      · simp [f, hxv, hid]
      · simp only [f, hxv, hid, if_false, Option.map_map]
        rcases findLaneSequencesHelper g end_ maxLength n x (visited ++ [x]) (cur + g.length x) with _ | s <;> rfl
    · intro p
      rw [List.nil_append, List.mem_flatMap]
      constructor
      · rintro ⟨x, hx, hp⟩
        obtain ⟨r, hr, hrs⟩ := hf x hx
        rw [hr] at hp
        exact ((hrs p).1 hp).1
      · intro hp
        obtain ⟨q, rfl, hlast, hch, hnd, hnv, hb⟩ := id hp
        have hq : q ≠ [] := by rintro rfl; simp at hlast
        obtain ⟨y, q', rfl⟩ := List.exists_cons_of_ne_nil hq
        have hy : y ∈ lanesToCheck g start :=
          (follows_iff g start y).1 (List.isChain_cons_cons.1 hch).1
        obtain ⟨r, hr, hrs⟩ := hf y hy
        exact ⟨y, hy, by rw [hr]; exact (hrs _).2 ⟨hp, by simp⟩⟩

theorem foldlM_some_mono {α β : Type} {f f' : β → α → Option β}
    (h : ∀ acc x r, f acc x = some r → f' acc x = some r) (xs : List α) :
    ∀ acc r, xs.foldlM f acc = some r → xs.foldlM f' acc = some r := by
  induction xs with
  | nil => intro acc r; exact id
  | cons x xs ih =>
    intro acc r hr
    rw [List.foldlM_cons, Option.bind_eq_bind, Option.bind_eq_some_iff] at hr ⊢
    obtain ⟨a, ha, hr⟩ := hr
    exact ⟨a, h _ _ _ ha, ih _ _ hr⟩

/-- A deeper recursion limit does not change a result. -/
theorem helper_mono {g : LaneGraph} {end_ : Nat} {maxLength : ℚ} {n start : Nat} {visited : List Nat} {cur : ℚ}
    {r : List (List Nat)} (h : findLaneSequencesHelper g end_ maxLength n start visited cur = some r) :
    findLaneSequencesHelper g end_ maxLength (n + 1) start visited cur = some r := by
  induction n generalizing start visited cur r with
  | zero => simp [findLaneSequencesHelper] at h
  | succ n ih =>
    unfold findLaneSequencesHelper at h ⊢
    split
    · rename_i hc; rw [if_pos hc] at h; exact h
    · rename_i hc
      rw [if_neg hc] at h
      refine foldlM_some_mono ?_ _ _ _ h
      intro acc x r hx
      by_cases hxv : x ∈ visited
      · simpa [hxv] using hx
      by_cases hid : g.id x = g.id end_
      · simpa [hxv, hid] using hx
      · simp only [hxv, hid, if_false, Option.bind_eq_bind, Option.bind_eq_some_iff] at hx ⊢
        obtain ⟨s, hs, hr⟩ := hx
        exact ⟨s, ih hs, hr⟩

theorem found_iff (g : LaneGraph) {start end_ : Nat} (hne : start ≠ end_) (maxLength : ℚ) (p : List Nat) :
    Found g end_ maxLength start [start] 0 p ↔ IsLaneSequence g start end_ maxLength p := by
  constructor
  · rintro ⟨q, rfl, hlast, hch, hnd, hnv, hb⟩
    have hq : q ≠ [] := by rintro rfl; simp at hlast
    obtain ⟨y, q', rfl⟩ := List.exists_cons_of_ne_nil hq
    exact ⟨by simp, by rw [List.getLast?_cons_cons]; exact hlast, hch,
      List.nodup_cons.2 ⟨fun h => hnv start h (by simp), hnd⟩, by simpa using hb⟩
  · rintro ⟨hf, hl, hc, hn, hb⟩
    match p, hf with
    | x :: q, hf =>
      simp only [List.head?_cons, Option.some.injEq] at hf
      subst hf
      match q with
      | [] => simp at hl; exact absurd hl hne
      | y :: q' =>
        refine ⟨y :: q', rfl, by rwa [List.getLast?_cons_cons] at hl, hc, (List.nodup_cons.1 hn).2, ?_, by simpa using hb⟩
        intro z hz h
        rw [List.mem_singleton] at h
        subst h
        exact (List.nodup_cons.1 hn).1 hz

/-! ### U-turns -/

theorem buildConnectionSet_spec {g : LaneGraph} (hd : NoDoubleJoin g) {a b : Nat} (h : Follows g a b) :
    ∃ cs, buildConnectionSet g a b = .ok cs ∧ cs.incoming.lane = a ∧ cs.ongoing.lane = b ∧
      cs.ongoing ∈ g.ongoing cs.incoming ∧ ∀ w, Leaves g a b w → w = cs.incoming.which := by
  unfold buildConnectionSet
  rcases h1 : (g.ongoing ⟨a, .start⟩).find? (fun le => le.lane == b) with _ | le
  · rcases h2 : (g.ongoing ⟨a, .finish⟩).find? (fun le => le.lane == b) with _ | le
    · exfalso
      obtain ⟨w, w', hm⟩ := h
      rw [List.find?_eq_none] at h1 h2
      cases w
      · exact h1 _ hm (by simp)
      · exact h2 _ hm (by simp)
    · refine ⟨⟨⟨a, .finish⟩, le⟩, by simp [h1, h2], rfl, by simpa using List.find?_some h2, List.mem_of_find?_eq_some h2, ?_⟩
      rintro w ⟨w', hm⟩
      cases w
      · rw [List.find?_eq_none] at h1; exact absurd (by simp) (h1 _ hm)
      · rfl
  · have hl : le.lane = b := by simpa using List.find?_some h1
    refine ⟨⟨⟨a, .start⟩, le⟩, by simp [h1], rfl, hl, List.mem_of_find?_eq_some h1, ?_⟩
    rintro w ⟨w', hm⟩
    cases w
    · rfl
    · exact absurd ⟨⟨le.which, by rw [← hl]; exact List.mem_of_find?_eq_some h1⟩, ⟨w', hm⟩⟩ (hd a b)

theorem which_eq_of_ne {a b c : Which} (h : a ≠ b) (h' : c ≠ b) : a = c := by
  cases a <;> cases b <;> cases c <;> simp_all

theorem leaves_cs {g : LaneGraph} {cs : ConnectionSet} {a b : Nat} (ha : cs.incoming.lane = a)
    (hb : cs.ongoing.lane = b) (hm : cs.ongoing ∈ g.ongoing cs.incoming) :
    Leaves g a b cs.incoming.which ∧ Enters g a b cs.ongoing.which := by
  subst ha hb
  exact ⟨⟨_, hm⟩, ⟨_, hm⟩⟩

/-- What one comparison of `HasUTurn` decides. -/
theorem uTurn_step {g : LaneGraph} (hu : UniformDirection g) {a b c : Nat}
    {cs nx : ConnectionSet}
    (h1 : cs.incoming.lane = a ∧ cs.ongoing.lane = b ∧ cs.ongoing ∈ g.ongoing cs.incoming ∧
      ∀ w, Leaves g a b w → w = cs.incoming.which)
    (h2 : nx.incoming.lane = b ∧ nx.ongoing.lane = c ∧ nx.ongoing ∈ g.ongoing nx.incoming ∧
      ∀ w, Leaves g b c w → w = nx.incoming.which) :
    nx.ongoing.which = cs.incoming.which ↔ ∃ w, Enters g a b w ∧ Leaves g b c w := by
  obtain ⟨ha, hb, hm, hl⟩ := h1
  obtain ⟨hb', hc, hm', hl'⟩ := h2
  have d1 := hu _ _ hm
  have d2 := hu _ _ hm'
  constructor
  · intro h
    refine ⟨cs.ongoing.which, (leaves_cs ha hb hm).2, ?_⟩
    have : cs.ongoing.which = nx.incoming.which :=
      which_eq_of_ne (b := cs.incoming.which) d1 (by rw [← h]; exact fun e => d2 e.symm)
    rw [this]
    exact (leaves_cs hb' hc hm').1
  · rintro ⟨w, ⟨w', hw⟩, hlv⟩
    have e1 := hl' w hlv
    have e2 : w' = cs.incoming.which := hl w' ⟨w, hw⟩
    have d3 := hu _ _ hw
    dsimp only at d3
    subst e1
    rw [← e2]
    exact which_eq_of_ne d2 (fun e => d3 e.symm)

theorem uTurn_cons (g : LaneGraph) (a b c : Nat) (rest : List Nat) :
    UTurn g (a :: b :: c :: rest) ↔ (∃ w, Enters g a b w ∧ Leaves g b c w) ∨ UTurn g (b :: c :: rest) := by
  constructor
  · rintro ⟨i, x, y, z, w, h1, h2, h3, h4, h5⟩
    cases i with
    | zero =>
      simp at h1 h2 h3
      subst h1 h2 h3
      exact .inl ⟨w, h4, h5⟩
    | succ i =>
      exact .inr ⟨i, x, y, z, w, by simpa using h1, by simpa using h2, by simpa using h3, h4, h5⟩
  · rintro (⟨w, h4, h5⟩ | ⟨i, x, y, z, w, h1, h2, h3, h4, h5⟩)
    · exact ⟨0, a, b, c, w, by simp, by simp, by simp, h4, h5⟩
    · exact ⟨i + 1, x, y, z, w, by simpa using h1, by simpa using h2, by simpa using h3, h4, h5⟩

theorem not_uTurn_short (g : LaneGraph) (p : List Nat) (h : p.length ≤ 2) : ¬ UTurn g p := by
  rintro ⟨i, x, y, z, w, h1, h2, h3, -, -⟩
  have := (List.getElem?_eq_some_iff.1 h3).1
  omega

theorem hasUTurnLoop_spec {g : LaneGraph} (hd : NoDoubleJoin g) (hu : UniformDirection g) (rest : List Nat) :
    ∀ (a b : Nat) (cs : ConnectionSet), (a :: b :: rest).IsChain (Follows g) →
      (cs.incoming.lane = a ∧ cs.ongoing.lane = b ∧ cs.ongoing ∈ g.ongoing cs.incoming ∧
        ∀ w, Leaves g a b w → w = cs.incoming.which) →
      ∃ r, hasUTurnLoop g cs b rest = .ok r ∧ (r = true ↔ UTurn g (a :: b :: rest)) := by
  induction rest with
  | nil =>
    intro a b cs _ _
    exact ⟨false, rfl, by simpa using not_uTurn_short g [a, b] (by simp)⟩
  | cons c rest ih =>
    intro a b cs hch hcs
    have hch' : (b :: c :: rest).IsChain (Follows g) := (List.isChain_cons_cons.1 hch).2
    obtain ⟨nx, hnx, hs⟩ := buildConnectionSet_spec hd (List.isChain_cons_cons.1 hch').1
    have key := uTurn_step hu hcs hs
    rw [uTurn_cons]
    simp only [hasUTurnLoop, hnx, bind, Except.bind]
    by_cases hw : nx.ongoing.which = cs.incoming.which
    · refine ⟨true, by rw [if_pos hw]; rfl, by simp [key.1 hw]⟩
    · obtain ⟨r, hr, hrs⟩ := ih b c nx hch' hs
      refine ⟨r, by rw [if_neg hw]; exact hr, ?_⟩
      rw [hrs]
      exact ⟨fun h => .inr h, fun h => h.resolve_left (fun h => hw (key.2 h))⟩

theorem hasUTurn_spec {g : LaneGraph} (hd : NoDoubleJoin g) (hu : UniformDirection g) {p : List Nat}
    (hp : p ≠ []) (hch : p.IsChain (Follows g)) : ∃ r, hasUTurn g p = .ok r ∧ (r = true ↔ UTurn g p) := by
  match p, hp with
  | [a], _ => exact ⟨false, rfl, by simpa using not_uTurn_short g [a] (by simp)⟩
  | [a, b], _ => exact ⟨false, rfl, by simpa using not_uTurn_short g [a, b] (by simp)⟩
  | a :: b :: c :: rest, _ =>
    obtain ⟨cs, hcs, hs⟩ := buildConnectionSet_spec hd (List.isChain_cons_cons.1 hch).1
    obtain ⟨r, hr, hrs⟩ := hasUTurnLoop_spec hd hu (c :: rest) a b cs hch hs
    exact ⟨r, by simp only [hasUTurn, hcs, bind, Except.bind]; exact hr, hrs⟩

theorem removeUTurns_spec {g : LaneGraph} (hd : NoDoubleJoin g) (hu : UniformDirection g) (ps : List (List Nat))
    (h : ∀ p ∈ ps, p ≠ [] ∧ p.IsChain (Follows g)) :
    ∃ r, removeUTurns g ps = .ok r ∧ ∀ p, p ∈ r ↔ p ∈ ps ∧ ¬ UTurn g p := by
  unfold removeUTurns
  suffices H : ∀ acc, ∃ r, ps.foldlM (fun result s => do
      if ← hasUTurn g s then return result else return result ++ [s]) acc = Except.ok (ε := Err) r ∧
      ∀ p, p ∈ r ↔ p ∈ acc ∨ (p ∈ ps ∧ ¬ UTurn g p) by
    obtain ⟨r, hr, hrs⟩ := H []
    exact ⟨r, hr, by simpa using hrs⟩
  induction ps with
  | nil => intro acc; exact ⟨acc, rfl, by simp⟩
  | cons x xs ih =>
    intro acc
    obtain ⟨b, hb, hbs⟩ := hasUTurn_spec hd hu (h x (by simp)).1 (h x (by simp)).2
    have ih' := ih (fun p hp => h p (by simp [hp]))
    rw [List.foldlM_cons, hb]
    cases b
    · obtain ⟨r, hr, hrs⟩ := ih' (acc ++ [x])
      refine ⟨r, by simpa [bind, Except.bind, pure, Except.pure] using hr, fun p => ?_⟩
      have hx : ¬ UTurn g x := fun h => by simpa using hbs.2 h
      rw [hrs]
      grind
    · obtain ⟨r, hr, hrs⟩ := ih' acc
      refine ⟨r, by simpa [bind, Except.bind, pure, Except.pure] using hr, fun p => ?_⟩
      have hx : UTurn g x := hbs.1 rfl
      rw [hrs]
      grind

/-! ### Lane-s routes -/

theorem determineEdgeS_spec {g : LaneGraph} (hd : NoDoubleJoin g) {a b : Nat} {w : Which}
    (h : Leaves g a b w) : determineEdgeS g a b = some (endS g ⟨a, w⟩) := by
  obtain ⟨w', hm⟩ := h
  unfold determineEdgeS laneExistsInSet endS
  cases w
  · have hf : ((g.ongoing ⟨a, .finish⟩).any fun le => le.lane == b) = false := by
      rw [List.any_eq_false]
      intro le hle heq
      have : le.lane = b := by simpa using heq
      exact hd a b ⟨⟨w', hm⟩, ⟨le.which, by rw [← this]; exact hle⟩⟩
    have hs : ((g.ongoing ⟨a, .start⟩).any fun le => le.lane == b) = true :=
      List.any_eq_true.2 ⟨_, hm, by simp⟩
    rw [hf, hs]; rfl
  · have hs : ((g.ongoing ⟨a, .finish⟩).any fun le => le.lane == b) = true :=
      List.any_eq_true.2 ⟨_, hm, by simp⟩
    rw [hs]; rfl

theorem endS_nonneg {g : LaneGraph} (hg : g.WellFormed) (le : LaneEnd) : 0 ≤ endS g le := by
  unfold endS
  split
  · exact le_refl _
  · exact hg.lengthNonneg _

theorem make_ok {s0 s1 : ℚ} (h0 : 0 ≤ s0) (h1 : 0 ≤ s1) : SRange.make s0 s1 = .ok ⟨s0, s1⟩ := by
  have h0' : s0 ≥ 0 := h0
  have h1' : s1 ≥ 0 := h1
  simp [SRange.make, throwUnless, h0', h1', bind, Except.bind, pure, Except.pure]

theorem meet_cons {g : LaneGraph} {a b : Nat} {p : List Nat} {ra rb : LaneSRange} {rs : List LaneSRange}
    (h1 : ∃ w w', (⟨b, w'⟩ : LaneEnd) ∈ g.ongoing ⟨a, w⟩ ∧
      ra.sRange.s1 = endS g ⟨a, w⟩ ∧ rb.sRange.s0 = endS g ⟨b, w'⟩)
    (h2 : Meet g (b :: p) (rb :: rs)) : Meet g (a :: b :: p) (ra :: rb :: rs) := by
  intro i x y rx ry hx hy hrx hry
  cases i with
  | zero =>
    simp at hx hy hrx hry
    subst hx hy hrx hry
    exact h1
  | succ i =>
    exact h2 i x y rx ry (by simpa using hx) (by simpa using hy) (by simpa using hrx) (by simpa using hry)

theorem meet_one (g : LaneGraph) (a : Nat) (p : List Nat) (r : LaneSRange) : Meet g (a :: p) [r] := by
  intro i x y rx ry _ _ _ hry
  simp at hry

theorem deriveRangesLoop_spec {g : LaneGraph} (hg : g.WellFormed) (hsym : SymmetricBranches g)
    (hd : NoDoubleJoin g) (endLane : Nat) {lastS : ℚ} (hS : 0 ≤ lastS) (p : List Nat) :
    ∀ (prev lane : Nat) (w w' : Which), (⟨lane, w'⟩ : LaneEnd) ∈ g.ongoing ⟨prev, w⟩ →
      (lane :: p).IsChain (Follows g) → (lane :: p).getLast? = some endLane →
      ∃ r rs, deriveRangesLoop g endLane lastS prev (lane :: p) = .ok (r :: rs) ∧
        r.sRange.s0 = endS g ⟨lane, w'⟩ ∧ (r :: rs).map LaneSRange.laneId = (lane :: p).map g.id ∧
        (∃ l, (r :: rs).getLast? = some l ∧ l.sRange.s1 = lastS) ∧ Meet g (lane :: p) (r :: rs) := by
  induction p with
  | nil =>
    intro prev lane w w' hm _ hlast
    simp at hlast
    subst hlast
    have he := determineEdgeS_spec hd (a := lane) (b := prev) (w := w') ⟨w, hsym _ _ hm⟩
    refine ⟨⟨g.id lane, ⟨endS g ⟨lane, w'⟩, lastS⟩⟩, [], ?_, rfl, rfl, ⟨_, rfl, rfl⟩, meet_one _ _ _ _⟩
    simp [deriveRangesLoop, he, valueOrThrow, make_ok (endS_nonneg hg _) hS, throwUnless, bind, Except.bind, pure, Except.pure]
  | cons next rest ih =>
    intro prev lane w w' hm hch hlast
    obtain ⟨v, v', hv⟩ := (List.isChain_cons_cons.1 hch).1
    rw [List.getLast?_cons_cons] at hlast
    obtain ⟨r, rs, hr, h0, hids, hl, hmeet⟩ := ih lane next v v' hv (List.isChain_cons_cons.1 hch).2 hlast
    have he0 := determineEdgeS_spec hd (a := lane) (b := prev) (w := w') ⟨w, hsym _ _ hm⟩
    have he1 := determineEdgeS_spec hd (a := lane) (b := next) (w := v) ⟨v', hv⟩
    refine ⟨⟨g.id lane, ⟨endS g ⟨lane, w'⟩, endS g ⟨lane, v⟩⟩⟩, r :: rs, ?_, rfl, ?_, ?_, ?_⟩
    · simp [deriveRangesLoop, he0, he1, valueOrThrow, make_ok (endS_nonneg hg _) (endS_nonneg hg _), hr, bind, Except.bind, pure, Except.pure]
    · rw [List.map_cons, hids]; rfl
    · simpa [List.getLast?_cons_cons] using hl
    · exact meet_cons ⟨v, v', hv, rfl, h0⟩ hmeet

theorem deriveRanges_spec {g : LaneGraph} (hg : g.WellFormed) (hsym : SymmetricBranches g)
    (hd : NoDoubleJoin g) {start end_ : Nat} {startS lastS : ℚ} (hS0 : 0 ≤ startS) (hS : 0 ≤ lastS) {p : List Nat}
    (hfirst : p.head? = some start) (hlast : p.getLast? = some end_) (hch : p.IsChain (Follows g)) :
    ∃ r, deriveRanges g start startS end_ lastS p = .ok r ∧ RouteAlong g startS lastS p r := by
  match p, hfirst with
  | [x], hfirst =>
    simp at hfirst hlast
    subst hfirst
    subst hlast
    refine ⟨⟨[⟨g.id x, ⟨startS, lastS⟩⟩]⟩, ?_, ⟨rfl, ⟨_, rfl, rfl⟩, ⟨_, rfl, rfl⟩, meet_one _ _ _ _⟩⟩
    simp [deriveRanges, make_ok hS0 hS, throwUnless, bind, Except.bind, pure, Except.pure]
  | x :: next :: rest, hfirst =>
    simp at hfirst
    subst hfirst
    obtain ⟨v, v', hv⟩ := (List.isChain_cons_cons.1 hch).1
    rw [List.getLast?_cons_cons] at hlast
    obtain ⟨r, rs, hr, h0, hids, ⟨l, hl, hl1⟩, hmeet⟩ := deriveRangesLoop_spec hg hsym hd end_ hS rest x next v v' hv (List.isChain_cons_cons.1 hch).2 hlast
    have he1 := determineEdgeS_spec hd (a := x) (b := next) (w := v) ⟨v', hv⟩
    refine ⟨⟨⟨g.id x, ⟨startS, endS g ⟨x, v⟩⟩⟩ :: r :: rs⟩, ?_, ⟨?_, ⟨_, rfl, rfl⟩, ⟨l, ?_, hl1⟩, ?_⟩⟩
    · simp [deriveRanges, he1, valueOrThrow, make_ok hS0 (endS_nonneg hg _), hr, throwUnless, bind, Except.bind, pure, Except.pure]
    · rw [List.map_cons, hids]; rfl
    · simpa [List.getLast?_cons_cons] using hl
    · exact meet_cons ⟨v, v', hv, rfl, h0⟩ hmeet

theorem foldlM_except {α β : Type} (f : α → Except Err β) (P : α → β → Prop) (xs : List α)
    (h : ∀ x ∈ xs, ∃ r, f x = .ok r ∧ P x r) :
    ∀ acc, ∃ rs, xs.foldlM (fun result s => do
      let r ← f s
      return result ++ [r]) acc = Except.ok (acc ++ rs) ∧ List.Forall₂ P xs rs := by
  induction xs with
  | nil => intro acc; exact ⟨[], by simp [pure, Except.pure], .nil⟩
  | cons x xs ih =>
    intro acc
    obtain ⟨r, hr, hp⟩ := h x (by simp)
    obtain ⟨rs, hrs, hf⟩ := ih (fun y hy => h y (by simp [hy])) (acc ++ [r])
    refine ⟨r :: rs, ?_, .cons hp hf⟩
    rw [List.foldlM_cons, hr]
    simpa [bind, Except.bind, pure, Except.pure] using hrs

end Maliput.Routing
