import Verif.Lemmas.Route

set_option autoImplicit false

/-! Lemmas about the position queries of phases and routes. -/
namespace Maliput.Route
open Maliput.Router (RoadNet RoadPos Phase positionInRanges)
open Maliput.Strategy (Pos RoadPositionResult isCloser kEps)
open Maliput.Spec Maliput.Route.Spec

theorem coversAllOf_point {r : SRange} {s tol : ℚ} : CoversAllOf r ⟨s, s⟩ tol ↔ ∃ x, Covers r x ∧ |x - s| ≤ tol := by
  unfold CoversAllOf
  constructor
  · intro h; exact h s (.inl ⟨le_refl _, le_refl _⟩)
  · rintro ⟨x, hx, h⟩ y hy
    have : y = s := by rcases hy with ⟨a, b⟩ | ⟨a, b⟩ <;> exact le_antisymm b a
    exact ⟨x, hx, this ▸ h⟩

/-- `ValidatePositionIsInLaneSRanges` answers, and says whether the position is on one of the ranges. -/
theorem positionInRanges_spec {net : RoadNet} {ranges : List LaneSRange} {tol : ℚ} {q : RoadPos} (ht : 0 ≤ tol)
    (hne : ranges ≠ []) (hv : ∀ r ∈ ranges, ValidRange r.sRange) (hq : 0 ≤ q.s) :
    ∃ b, positionInRanges net ranges tol q = .ok b ∧
      (b = true ↔ ∃ r ∈ ranges, r.laneId = net.laneId q.lane ∧ OnRange tol r q.s) := by
  have key : ∀ l : List LaneSRange, (∀ r ∈ l, ValidRange r.sRange) →
      ∃ b, l.anyM (fun r => if net.laneId q.lane ≠ r.laneId then .ok false
        else do
          let at_ ← SRange.make q.s q.s
          r.sRange.contains at_ tol) = Except.ok (ε := Err) b ∧
        (b = true ↔ ∃ r ∈ l, r.laneId = net.laneId q.lane ∧ OnRange tol r q.s) := by
    intro l hl
    induction l with
    | nil => exact ⟨false, rfl, by simp⟩
    | cons r l ih =>
      obtain ⟨b, hb, hb'⟩ := ih (fun x hx => hl x (by simp [hx]))
      by_cases hid : net.laneId q.lane = r.laneId
      · obtain ⟨c, hc, hc'⟩ := Props.srange_contains_iff r.sRange ⟨q.s, q.s⟩ (hl r (by simp)) ⟨hq, hq⟩ tol ht
        rw [coversAllOf_point] at hc'
        have hr : (if net.laneId q.lane ≠ r.laneId then Except.ok false else (do
            let at_ ← SRange.make q.s q.s
            r.sRange.contains at_ tol)) = Except.ok (ε := Err) c := by
          rw [if_neg (by simpa using hid), make_ok hq hq]
          exact hc
        rw [List.anyM, hr]
        cases c with
        | true =>
          exact ⟨true, rfl, by simp only [true_iff]; exact ⟨r, by simp, hid.symm, hc'.1 rfl⟩⟩
        | false =>
          refine ⟨b, hb, ?_⟩
          rw [hb']
          simp only [List.mem_cons, exists_eq_or_imp]
          constructor
          · exact .inr
          · rintro (⟨-, h⟩ | h)
            · have := hc'.2 h; cases this
            · exact h
      · rw [List.anyM, if_pos hid]
        refine ⟨b, hb, ?_⟩
        rw [hb']
        simp only [List.mem_cons, exists_eq_or_imp]
        constructor
        · exact .inr
        · rintro (⟨h, -⟩ | h)
          · exact absurd h.symm hid
          · exact h
  obtain ⟨b, hb, hb'⟩ := key ranges hv
  refine ⟨b, ?_, hb'⟩
  unfold positionInRanges
  simp only [List.isEmpty_eq_false_iff.2 hne, ht, decide_true, Bool.not_false, throwUnless, if_true]
  exact hb

/-- The candidate of a range is on that range. -/
theorem candidate_spec {net : RoadNet} (hids : IdsAgree net) {geo : Geo} (hin : LanePositionsInRange net geo) {tol : ℚ}
    (ht : 0 ≤ tol) {pos : Pos} {r : LaneSRange} (hv : ValidRange r.sRange) (hl : ∃ l, net.byId r.laneId = some l) :
    ∃ c l, candidate net geo tol pos r = .ok c ∧ net.byId r.laneId = some l ∧ c.lane = l ∧ OnRange tol r c.s ∧
      (c = geo.geometry.resultOn pos l ∧ OnRange tol r (geo.geometry.toLanePosition l pos).s ∨
        ¬OnRange tol r (geo.geometry.toLanePosition l pos).s ∧ (c.s = r.sRange.s0 ∨ c.s = r.sRange.s1) ∧
          (∀ x, Covers r.sRange x →
            |(geo.geometry.toLanePosition l pos).s - c.s| ≤ |(geo.geometry.toLanePosition l pos).s - x|) ∧
          c.r = 0 ∧ c.h = 0 ∧ c.nearest = geo.toInertial ⟨l, c.s, 0, 0⟩ ∧ c.distance = geo.distance c.nearest pos) := by
  obtain ⟨l, hl⟩ := hl
  unfold candidate
  rw [hl]
  dsimp only
  obtain ⟨b, hb, hb'⟩ := positionInRanges_spec (net := net) (ranges := [r])
    (q := ⟨l, (geo.geometry.toLanePosition l pos).s, (geo.geometry.toLanePosition l pos).r,
      (geo.geometry.toLanePosition l pos).h⟩) ht (by simp) (by simpa using hv) (hin l pos).1
  rw [hb]
  simp only [List.mem_singleton, exists_eq_left] at hb'
  cases b with
  | true =>
    have hon := (hb'.1 rfl).2
    exact ⟨_, l, rfl, rfl, rfl, hon, .inl ⟨rfl, hon⟩⟩
  | false =>
    have hno : ¬OnRange tol r (geo.geometry.toLanePosition l pos).s := fun h => by
      have := hb'.2 ⟨(hids _ _ hl).symm, h⟩
      cases this
    generalize hs : (geo.geometry.toLanePosition l pos).s = s at *
    have c0 : Covers r.sRange r.sRange.s0 := by
      rcases le_total r.sRange.s0 r.sRange.s1 with h | h
      · exact .inl ⟨le_refl _, h⟩
      · exact .inr ⟨h, le_refl _⟩
    have c1 : Covers r.sRange r.sRange.s1 := by
      rcases le_total r.sRange.s0 r.sRange.s1 with h | h
      · exact .inl ⟨h, le_refl _⟩
      · exact .inr ⟨le_refl _, h⟩
    have hcs : ∀ x, Covers r.sRange x → x ≠ s := by
      rintro x hx rfl
      exact hno ⟨x, hx, by simpa using ht⟩
    have near : ∀ x, Covers r.sRange x →
        |s - (if |s - r.sRange.s0| ≤ |s - r.sRange.s1| then r.sRange.s0 else r.sRange.s1)| ≤ |s - x| := by
      intro x hx
      -- `s` is outside of the range
      have hout : s < min r.sRange.s0 r.sRange.s1 ∨ max r.sRange.s0 r.sRange.s1 < s := by
        by_contra hc
        rw [not_or, not_lt, not_lt] at hc
        exact hcs s ((covers_iff _ _).2 hc) rfl
      rw [covers_iff] at hx
      have m0 := min_le_left r.sRange.s0 r.sRange.s1
      have m1 := min_le_right r.sRange.s0 r.sRange.s1
      have M0 := le_max_left r.sRange.s0 r.sRange.s1
      have M1 := le_max_right r.sRange.s0 r.sRange.s1
      have hmin : min r.sRange.s0 r.sRange.s1 = r.sRange.s0 ∨ min r.sRange.s0 r.sRange.s1 = r.sRange.s1 :=
        min_choice _ _
      have hmax : max r.sRange.s0 r.sRange.s1 = r.sRange.s0 ∨ max r.sRange.s0 r.sRange.s1 = r.sRange.s1 :=
        max_choice _ _
      rcases hout with ho | ho
      · rw [abs_of_neg (show s - r.sRange.s0 < 0 by linarith), abs_of_neg (show s - r.sRange.s1 < 0 by linarith),
          abs_of_neg (show s - x < 0 by linarith [hx.1])]
        split
        · rw [abs_of_neg (show s - r.sRange.s0 < 0 by linarith)]
          rcases hmin with h | h <;> linarith [hx.1]
        · rw [abs_of_neg (show s - r.sRange.s1 < 0 by linarith)]
          rcases hmin with h | h <;> linarith [hx.1]
      · rw [abs_of_pos (show 0 < s - r.sRange.s0 by linarith), abs_of_pos (show 0 < s - r.sRange.s1 by linarith),
          abs_of_pos (show 0 < s - x by linarith [hx.2])]
        split
        · rw [abs_of_pos (show 0 < s - r.sRange.s0 by linarith)]
          rcases hmax with h | h <;> linarith [hx.2]
        · rw [abs_of_pos (show 0 < s - r.sRange.s1 by linarith)]
          rcases hmax with h | h <;> linarith [hx.2]
    refine ⟨_, l, rfl, rfl, rfl, ?_, .inr ⟨by rw [hs]; exact hno, ?_,
      by intro x hx; rw [hs]; exact near x hx, rfl, rfl, rfl, rfl⟩⟩
    · dsimp only
      split
      · exact ⟨_, c0, by simpa using ht⟩
      · exact ⟨_, c1, by simpa using ht⟩
    · dsimp only
      split
      · exact .inl rfl
      · exact .inr rfl

/-- The loop for the best index returns one of the results, with a distance at most that of any result, up to
one threshold per comparison. -/
theorem best_spec (geo : Geo) (rs : List (RoadPositionResult Nat × Nat)) (c : RoadPositionResult Nat × Nat) :
    (best geo rs c = c ∨ best geo rs c ∈ rs) ∧
      (best geo rs c).1.distance ≤ c.1.distance + rs.length * kEps ∧
      ∀ x ∈ rs, (best geo rs c).1.distance ≤ x.1.distance + rs.length * kEps := by
  have he := Strategy.kEps_pos
  induction rs generalizing c with
  | nil => simp [best]
  | cons r rs ih =>
    have ih := ih (if isCloser geo.geometry r.1 c.1 then r else c)
    unfold best at ih ⊢
    rw [List.foldl_cons]
    simp only [List.length_cons, Nat.cast_add, Nat.cast_one, List.mem_cons]
    obtain ⟨h0, h3, h4⟩ := ih
    generalize hn : (rs.length : ℚ) = n at *
    have hn0 : 0 ≤ n * kEps := by rw [← hn]; positivity
    have h1 : (if isCloser geo.geometry r.1 c.1 then r else c).1.distance ≤ c.1.distance + kEps := by
      split
      · rename_i h; exact (Strategy.isCloser_lt h).le
      · linarith
    have h2 : (if isCloser geo.geometry r.1 c.1 then r else c).1.distance ≤ r.1.distance + kEps := by
      split
      · linarith
      · rename_i h; exact Strategy.not_isCloser_le (by simpa using h)
    refine ⟨?_, by linarith, ?_⟩
    · rcases h0 with h | h
      · rw [h]
        split
        · exact .inr (.inl rfl)
        · exact .inl rfl
      · exact .inr (.inr h)
    · rintro x (rfl | hx)
      · linarith
      · linarith [h4 x hx]

theorem covers_ends (r : SRange) : Covers r r.s0 ∧ Covers r r.s1 := by
  rcases le_total r.s0 r.s1 with h | h
  · exact ⟨.inl ⟨le_refl _, h⟩, .inl ⟨h, le_refl _⟩⟩
  · exact ⟨.inr ⟨h, le_refl _⟩, .inr ⟨le_refl _, h⟩⟩

theorem rangeDistance_unique {net : RoadNet} {geo : Geo} {tol : ℚ} (ht : 0 ≤ tol) {pos : Pos} {r : LaneSRange} {d d' : ℚ}
    (h : RangeDistance net geo tol pos r d) (h' : RangeDistance net geo tol pos r d') : d = d' := by
  obtain ⟨l, hl, h⟩ := h
  obtain ⟨l', hl', h'⟩ := h'
  rw [hl] at hl'
  cases hl'
  dsimp only at h h'
  generalize (geo.geometry.toLanePosition l pos).s = n at *
  rcases h with ⟨h1, h2⟩ | ⟨h1, s, h2, h3, h4⟩ <;> rcases h' with ⟨h1', h2'⟩ | ⟨h1', s', h2', h3', h4'⟩
  · rw [h2, h2']
  · exact absurd h1 h1'
  · exact absurd h1' h1
  · obtain ⟨c0, c1⟩ := covers_ends r.sRange
    have hs : Covers r.sRange s := by rcases h2 with rfl | rfl <;> assumption
    have hs' : Covers r.sRange s' := by rcases h2' with rfl | rfl <;> assumption
    have e : |n - s| = |n - s'| := le_antisymm (h3 _ hs') (h3' _ hs)
    have : s = s' := by
      rcases abs_eq_abs.1 e with e | e
      · linarith
      · -- then `n` is between the two
        exfalso
        refine h1 ⟨n, ?_, by simpa using ht⟩
        rw [covers_iff] at hs hs' ⊢
        constructor <;> linarith [hs.1, hs.2, hs'.1, hs'.2]
    rw [h4, h4', this]

/-- What a query answers for a built phase. -/
theorem findPhasePosition_spec {net : RoadNet} (hids : IdsAgree net) {geo : Geo} (hin : LanePositionsInRange net geo)
    {p : Phase} (hp : BuiltPhase net p) (pos : Pos) :
    ∃ x r l, findPhasePosition net geo p pos = .ok x ∧ p.ranges[x.index]? = some r ∧ net.byId r.laneId = some l ∧
      OnRange p.tolerance r x.s ∧ RangeDistance net geo p.tolerance pos r x.distance ∧
      ∀ r' ∈ p.ranges, ∀ d, RangeDistance net geo p.tolerance pos r' d → x.distance ≤ d + p.ranges.length * kEps := by
  have hv := fun r hr => builtPhase_ranges (r := r) hp hr
  obtain ⟨ht, hne⟩ : 0 ≤ p.tolerance ∧ p.ranges ≠ [] := by
    obtain ⟨_, _, _, _, _, h⟩ := hp
    obtain ⟨rfl, ht, hne, -⟩ := Router.phaseMake_ok h
    exact ⟨ht, hne⟩
  have cand : ∀ r ∈ p.ranges, ∃ c, candidate net geo p.tolerance pos r = .ok c := by
    intro r hr
    obtain ⟨c, l, h, -⟩ := candidate_spec hids hin ht (pos := pos) (hv r hr).1 (hv r hr).2
    exact ⟨c, h⟩
  have dist : ∀ r ∈ p.ranges, ∀ c, candidate net geo p.tolerance pos r = .ok c →
      (∃ l, net.byId r.laneId = some l) ∧ OnRange p.tolerance r c.s ∧
        RangeDistance net geo p.tolerance pos r c.distance := by
    intro r hr c hc
    obtain ⟨c', l, h, hl, hlane, hon, h'⟩ := candidate_spec hids hin ht (pos := pos) (hv r hr).1 (hv r hr).2
    rw [hc] at h
    cases h
    refine ⟨⟨l, hl⟩, hon, l, hl, ?_⟩
    rcases h' with ⟨h1, h2⟩ | ⟨h1, h2, h3, -, -, h4, h5⟩
    · exact .inl ⟨h2, by rw [h1]; rfl⟩
    · exact .inr ⟨h1, c.s, h2, h3, by rw [h5, h4]⟩
  obtain ⟨cs, hcs⟩ : ∃ cs, p.ranges.mapM (candidate net geo p.tolerance pos) = .ok cs := by
    have : ∀ l : List LaneSRange, (∀ r ∈ l, ∃ c, candidate net geo p.tolerance pos r = .ok c) →
        ∃ cs, List.Forall₂ (fun a b => candidate net geo p.tolerance pos a = .ok b) l cs := by
      intro l
      induction l with
      | nil => intro _; exact ⟨[], .nil⟩
      | cons r l ih =>
        intro h
        obtain ⟨c, hc⟩ := h r (by simp)
        obtain ⟨cs, hcs⟩ := ih (fun x hx => h x (by simp [hx]))
        exact ⟨c :: cs, .cons hc hcs⟩
    obtain ⟨cs, h⟩ := this p.ranges cand
    exact ⟨cs, mapM_of_forall₂ h⟩
  have hall := mapM_ok hcs
  have hlen := hall.length_eq
  have atIdx : ∀ c i, (c, i) ∈ cs.zipIdx → ∃ r, p.ranges[i]? = some r ∧ candidate net geo p.tolerance pos r = .ok c := by
    intro c i hc
    rw [List.mem_zipIdx_iff_getElem?] at hc
    have hc : cs[i]? = some c := hc
    have hi := (List.getElem?_eq_some_iff.1 hc).1
    have hi' : p.ranges[i]? = some (p.ranges[i]'(by omega)) := List.getElem?_eq_getElem _
    exact ⟨_, hi', Router.forall₂_getElem hall hi' hc⟩
  obtain ⟨c0, rest, hz⟩ : ∃ c0 rest, cs.zipIdx = c0 :: rest := by
    cases cs with
    | nil => exact absurd (List.length_eq_zero_iff.1 hlen) hne
    | cons c cs => exact ⟨_, _, rfl⟩
  obtain ⟨hb0, hb1, hb2⟩ := best_spec geo rest c0
  have hbm : best geo rest c0 ∈ cs.zipIdx := by
    rw [hz]
    rcases hb0 with h | h
    · rw [h]; exact List.mem_cons_self
    · exact List.mem_cons_of_mem _ h
  obtain ⟨r, hr, hrc⟩ := atIdx _ _ hbm
  obtain ⟨⟨l, hl⟩, hon, hd⟩ := dist r (List.mem_of_getElem? hr) _ hrc
  refine ⟨⟨(best geo rest c0).2, (best geo rest c0).1.s, (best geo rest c0).1.r, (best geo rest c0).1.h,
    (best geo rest c0).1.nearest, (best geo rest c0).1.distance⟩, r, l, ?_, hr, hl, hon, hd, ?_⟩
  · unfold findPhasePosition
    rw [hcs]
    simp only [bind, Except.bind, hz, pure, Except.pure]
  · intro r' hr' d hd'
    obtain ⟨c, hc⟩ := cand r' hr'
    have := rangeDistance_unique ht (dist r' hr' c hc).2.2 hd'
    subst this
    obtain ⟨i, hi, rfl⟩ := List.getElem_of_mem hr'
    have hci := Router.forall₂_getElem hall (List.getElem?_eq_getElem hi)
      (List.getElem?_eq_getElem (show i < cs.length by omega))
    rw [hc] at hci
    cases hci
    have hmem : (cs[i]'(by omega), i) ∈ cs.zipIdx := List.mem_zipIdx_iff_getElem?.2 (List.getElem?_eq_getElem _)
    rw [hz] at hmem
    have hlr : (rest.length : ℚ) * kEps ≤ p.ranges.length * kEps := by
      have : rest.length ≤ p.ranges.length := by
        have := congrArg List.length hz
        rw [List.length_zipIdx, List.length_cons] at this
        omega
      have : (rest.length : ℚ) ≤ p.ranges.length := by exact_mod_cast this
      exact mul_le_mul_of_nonneg_right this Strategy.kEps_pos.le
    rcases List.mem_cons.1 hmem with h | h
    · have e := congrArg (fun x => x.1.distance) h
      dsimp only at e ⊢
      linarith
    · have := hb2 _ h; dsimp only at this ⊢; linarith

theorem rangeInNetwork_iff {net : RoadNet} {tol : ℚ} (ht : 0 ≤ tol) {r : LaneSRange} (hr : ValidRange r.sRange) :
    Router.rangeInNetwork net tol r = .ok true ↔ InNetwork net tol r := by
  unfold Router.rangeInNetwork InNetwork
  cases hl : net.byId r.laneId with
  | none => simp
  | some l =>
    dsimp only
    rw [bind_ok]
    constructor
    · rintro ⟨w, hw, h⟩
      obtain ⟨rfl, h0, h1⟩ := Router.make_ok hw
      obtain ⟨b, hb, hb'⟩ := Props.srange_contains_iff ⟨0, net.length l⟩ r.sRange ⟨le_rfl, h1⟩ hr tol ht
      rw [hb] at h
      cases h
      exact ⟨l, rfl, h1, hb'.1 rfl⟩
    · rintro ⟨l', hl', h1, h⟩
      cases hl'
      obtain ⟨b, hb, hb'⟩ := Props.srange_contains_iff ⟨0, net.length l⟩ r.sRange ⟨le_rfl, h1⟩ hr tol ht
      exact ⟨⟨0, net.length l⟩, make_ok le_rfl h1, by rw [hb, hb'.2 h]⟩

theorem positionInRanges_iff {net : RoadNet} {ranges : List LaneSRange} {tol : ℚ} {q : RoadPos} (ht : 0 ≤ tol)
    (hne : ranges ≠ []) (hv : ∀ r ∈ ranges, ValidRange r.sRange) :
    positionInRanges net ranges tol q = .ok true ↔ InRanges net tol ranges q := by
  constructor
  · intro h
    have h0 : 0 ≤ q.s := by
      simp only [positionInRanges, bind_ok, throwUnless_ok, decide_eq_true_eq] at h
      obtain ⟨-, -, -, -, h⟩ := h
      obtain ⟨r, hr, h⟩ := anyM_ok h
      split at h
      · simp at h
      · rw [bind_ok] at h
        obtain ⟨w, hw, h⟩ := h
        exact (Router.make_ok hw).2.1
    obtain ⟨b, hb, hb'⟩ := positionInRanges_spec ht hne hv h0
    rw [hb] at h
    cases h
    exact ⟨h0, hb'.1 rfl⟩
  · rintro ⟨h0, h⟩
    obtain ⟨b, hb, hb'⟩ := positionInRanges_spec ht hne hv h0
    rw [hb, hb'.2 h]

theorem validateAdjacent_iff {net : RoadNet} {ranges : List LaneSRange} :
    Router.validateAdjacent net ranges = .ok () ↔ ranges.IsChain (fun a b => HasOnLeft net a b ∨ HasOnLeft net b a) := by
  induction ranges with
  | nil => simp [Router.validateAdjacent]
  | cons a rest ih =>
    cases rest with
    | nil => simp [Router.validateAdjacent]
    | cons b rest =>
      rw [List.isChain_cons_cons, ← ih, Router.validateAdjacent]
      simp only [bind_ok, throwUnless_ok]
      unfold Router.rangesAdjacent HasOnLeft LeftOf
      cases ha : net.byId a.laneId <;> cases hb : net.byId b.laneId <;> simp [and_comm]

theorem phaseMake_iff {net : RoadNet} {i : Nat} {tol : ℚ} {starts ends : List RoadPos} {ranges : List LaneSRange}
    (hv : ∀ r ∈ ranges, ValidRange r.sRange) {p : Phase} :
    Phase.make net i tol starts ends ranges = .ok p ↔
      p = ⟨i, tol, starts, ends, ranges⟩ ∧ 0 ≤ tol ∧ starts ≠ [] ∧ ends ≠ [] ∧ ranges ≠ [] ∧
        (∀ r ∈ ranges, InNetwork net tol r) ∧ (∀ q ∈ starts, InRanges net tol ranges q) ∧
        (∀ q ∈ ends, InRanges net tol ranges q) ∧
        ranges.IsChain (fun a b => HasOnLeft net a b ∨ HasOnLeft net b a) := by
  rw [← validateAdjacent_iff]
  constructor
  · intro h
    obtain ⟨rfl, ht, hne, h1, h2, h3⟩ := Router.phaseMake_ok h
    simp only [Phase.make, bind_ok, throwUnless_ok, pure_ok] at h
    obtain ⟨-, -, -, hs, -, he, -, -, -, -, -, -, -, -, -, -, -, -, -, -, u, ha⟩ := h
    exact ⟨rfl, ht, by simpa using hs, by simpa using he, hne, fun r hr => (rangeInNetwork_iff ht (hv r hr)).1 (h1 r hr),
      fun q hq => (positionInRanges_iff ht hne hv).1 (h2 q hq), fun q hq => (positionInRanges_iff ht hne hv).1 (h3 q hq), ha.1⟩
  · rintro ⟨rfl, ht, hs, he, hne, h1, h2, h3, ha⟩
    simp only [Phase.make, bind_ok, throwUnless_ok, pure_ok, decide_eq_true_eq]
    exact ⟨(), ht, (), by simpa using hs, (), by simpa using he, (), by simpa using hne, true,
      allM_ok.2 fun r hr => (rangeInNetwork_iff ht (hv r hr)).2 (h1 r hr), (), rfl, true,
      allM_ok.2 fun q hq => (positionInRanges_iff ht hne hv).2 (h2 q hq), (), rfl, true,
      allM_ok.2 fun q hq => (positionInRanges_iff ht hne hv).2 (h3 q hq), (), rfl, (), ha, trivial⟩

/-- What `Route::FindRoutePosition` returns. -/
theorem findRoutePosition_spec {net : RoadNet} (hids : IdsAgree net) {geo : Geo} (hin : LanePositionsInRange net geo)
    {route : List Phase} (hb : Built net route) (pos : Pos) :
    ∃ x p r, findRoutePosition net geo route pos = .ok x ∧ route[x.phase]? = some p ∧
      findPhasePosition net geo p pos = .ok x.inPhase ∧ p.ranges[x.inPhase.index]? = some r ∧
      OnRange p.tolerance r x.inPhase.s ∧ RangeDistance net geo p.tolerance pos r x.inPhase.distance ∧
      ∀ p' ∈ route, ∀ r' ∈ p'.ranges, ∀ d, RangeDistance net geo p'.tolerance pos r' d →
        x.inPhase.distance ≤ d + (p'.ranges.length + route.length) * kEps := by
  have spec := fun p hp => findPhasePosition_spec hids hin (hb.2 p hp) pos
  obtain ⟨xs, hxs⟩ : ∃ xs, route.mapM (fun p => findPhasePosition net geo p pos) = .ok xs := by
    have : ∀ l : List Phase, (∀ p ∈ l, ∃ x, findPhasePosition net geo p pos = .ok x) →
        ∃ cs, List.Forall₂ (fun p c => findPhasePosition net geo p pos = .ok c) l cs := by
      intro l
      induction l with
      | nil => intro _; exact ⟨[], .nil⟩
      | cons r l ih =>
        intro h
        obtain ⟨c, hc⟩ := h r (by simp)
        obtain ⟨cs, hcs⟩ := ih (fun x hx => h x (by simp [hx]))
        exact ⟨c :: cs, .cons hc hcs⟩
    obtain ⟨cs, h⟩ := this route (fun p hp => by obtain ⟨x, r, l, h, -⟩ := spec p hp; exact ⟨x, h⟩)
    exact ⟨cs, mapM_of_forall₂ h⟩
  have hall := mapM_ok hxs
  have hlen := hall.length_eq
  have key : ∀ (l : List Phase) (ys : List PhasePositionResult), (∀ p ∈ l, p ∈ route) →
      List.Forall₂ (fun p c => findPhasePosition net geo p pos = .ok c) l ys →
      ∃ cs, (l.zip ys).mapM (fun x => asRoadPosition net x.1 x.2) = .ok cs ∧
        List.Forall₂ (fun (y : PhasePositionResult) (c : RoadPositionResult Nat) => c.distance = y.distance) ys cs := by
    intro l ys hm h
    induction h with
    | nil => exact ⟨[], rfl, .nil⟩
    | @cons p y l ys hpy _ ih =>
      obtain ⟨cs, h1, h2⟩ := ih (fun p hp => hm p (by simp [hp]))
      obtain ⟨x, r, la, hx, hr, hla, -⟩ := spec p (hm p (by simp))
      rw [hpy] at hx
      cases hx
      refine ⟨⟨la, y.s, y.r, y.h, y.inertial, y.distance⟩ :: cs, ?_, .cons rfl h2⟩
      rw [List.zip_cons_cons, List.mapM_cons, h1]
      simp only [asRoadPosition, hr, hla, bind, Except.bind, pure, Except.pure]
  obtain ⟨cs, hcs, hd⟩ := key route xs (fun _ h => h) hall
  have hlen' := hd.length_eq
  obtain ⟨c0, rest, hz⟩ : ∃ c0 rest, cs.zipIdx = c0 :: rest := by
    cases cs with
    | nil => exact absurd (List.length_eq_zero_iff.1 (by simpa using hlen.trans hlen')) hb.1
    | cons c cs => exact ⟨_, _, rfl⟩
  obtain ⟨hb0, hb1, hb2⟩ := best_spec geo rest c0
  have hbm : best geo rest c0 ∈ cs.zipIdx := by
    rw [hz]
    rcases hb0 with h | h
    · rw [h]; exact List.mem_cons_self
    · exact List.mem_cons_of_mem _ h
  generalize hbe : best geo rest c0 = b at *
  obtain ⟨c, i⟩ := b
  rw [List.mem_zipIdx_iff_getElem?] at hbm
  have hci : cs[i]? = some c := hbm
  have hi := (List.getElem?_eq_some_iff.1 hci).1
  have hxi : xs[i]? = some (xs[i]'(by omega)) := List.getElem?_eq_getElem _
  have hpi : route[i]? = some (route[i]'(by omega)) := List.getElem?_eq_getElem _
  have hfx := Router.forall₂_getElem hall hpi hxi
  have hdc := Router.forall₂_getElem hd hxi hci
  obtain ⟨x, r, la, hx, hr, hla, hon, hrd, -⟩ := spec _ (List.mem_of_getElem? hpi)
  rw [hfx] at hx
  cases hx
  refine ⟨⟨i, xs[i]'(by omega)⟩, route[i]'(by omega), r, ?_, hpi, hfx, hr, hon, hrd, ?_⟩
  · unfold findRoutePosition
    rw [hxs]
    simp only [bind, Except.bind, hcs, hz, hbe, hxi, pure, Except.pure]
  · intro p' hp' r' hr' d hd'
    obtain ⟨k, hk, rfl⟩ := List.getElem_of_mem hp'
    have hxk : xs[k]? = some (xs[k]'(by omega)) := List.getElem?_eq_getElem _
    have hck : cs[k]? = some (cs[k]'(by omega)) := List.getElem?_eq_getElem _
    obtain ⟨y, r2, la2, hy, -, -, -, -, hmin⟩ := spec _ hp'
    have hfy := Router.forall₂_getElem hall (List.getElem?_eq_getElem hk) hxk
    rw [hfy] at hy
    cases hy
    have h1 := hmin r' hr' d hd'
    have h2 := Router.forall₂_getElem hd hxk hck
    have hmem : (cs[k]'(by omega), k) ∈ cs.zipIdx := List.mem_zipIdx_iff_getElem?.2 hck
    rw [hz] at hmem
    have hlr : (rest.length : ℚ) * kEps ≤ route.length * kEps := by
      have : rest.length ≤ route.length := by
        have := congrArg List.length hz
        rw [List.length_zipIdx, List.length_cons] at this
        omega
      have : (rest.length : ℚ) ≤ route.length := by exact_mod_cast this
      exact mul_le_mul_of_nonneg_right this Strategy.kEps_pos.le
    rcases List.mem_cons.1 hmem with h | h
    · have e := congrArg (fun x => x.1.distance) h
      dsimp only at e hb1 ⊢
      linarith
    · have := hb2 _ h; dsimp only at this ⊢; linarith

/-- What the search for the first phase with a position finds. -/
theorem findPhaseOf_spec {net : RoadNet} {q : RoadPos} (hq : 0 ≤ q.s) (l : List (Phase × Nat))
    (hl : ∀ x ∈ l, BuiltPhase net x.1) :
    (findPhaseOf net q l = .ok none ∧ ∀ x ∈ l, ¬InRanges net x.1.tolerance x.1.ranges q) ∨
      ∃ l1 x l2, l = l1 ++ x :: l2 ∧ findPhaseOf net q l = .ok (some x) ∧ InRanges net x.1.tolerance x.1.ranges q ∧
        ∀ y ∈ l1, ¬InRanges net y.1.tolerance y.1.ranges q := by
  induction l with
  | nil => exact .inl ⟨rfl, by simp⟩
  | cons x l ih =>
    obtain ⟨p, i⟩ := x
    obtain ⟨hne, ht, hv⟩ : p.ranges ≠ [] ∧ 0 ≤ p.tolerance ∧ ∀ r ∈ p.ranges, ValidRange r.sRange := by
      have hb := hl _ List.mem_cons_self
      refine ⟨?_, ?_, fun r hr => (builtPhase_ranges hb hr).1⟩ <;> obtain ⟨_, _, _, _, _, h⟩ := hb <;>
        obtain ⟨rfl, ht, hne, -⟩ := Router.phaseMake_ok h <;> assumption
    obtain ⟨b, hb, hb'⟩ := positionInRanges_spec (net := net) ht hne hv hq
    have hin : InRanges net p.tolerance p.ranges q ↔ b = true := by
      rw [hb']
      exact ⟨fun h => h.2, fun h => ⟨hq, h⟩⟩
    cases b with
    | true =>
      refine .inr ⟨[], _, l, rfl, ?_, hin.2 rfl, by simp⟩
      rw [findPhaseOf, hb]; rfl
    | false =>
      have e : findPhaseOf net q ((p, i) :: l) = findPhaseOf net q l := by rw [findPhaseOf, hb]; rfl
      have hno : ¬InRanges net p.tolerance p.ranges q := fun h => by cases hin.1 h
      rcases ih (fun x hx => hl x (List.mem_cons_of_mem _ hx)) with ⟨h1, h2⟩ | ⟨l1, x, l2, h1, h2, h3, h4⟩
      · refine .inl ⟨e.trans h1, ?_⟩
        rintro y hy
        rcases List.mem_cons.1 hy with rfl | hy
        · exact hno
        · exact h2 y hy
      · refine .inr ⟨(p, i) :: l1, x, l2, by rw [h1]; rfl, e.trans h2, h3, ?_⟩
        rintro y hy
        rcases List.mem_cons.1 hy with rfl | hy
        · exact hno
        · exact h4 y hy

end Maliput.Route
