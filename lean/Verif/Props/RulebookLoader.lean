import Verif.Lemmas.RulebookLoad
import Verif.Props.Rulebook

set_option autoImplicit false

/-!
C75: loading a rulebook document in the old format.  `g` gives the length of each lane of the road
geometry, `c` the conversion of texts to numbers.
-/
namespace Maliput.Props

open Maliput.Rules Maliput.Rulebook Maliput.Rulebook.Spec Maliput.Loader Maliput.Loader.Spec Maliput.Yaml
  Maliput.Yaml.Spec

/-- The two discrete value rules of a right-of-way rule. -/
theorem rowRules_spec {g : String → Option ℚ} {c : Conv} {docs : List Doc} {rss : List (List AnyRule)}
    (h : List.Forall₂ (RowRules g c) docs rss) : ∃ rows stops mirrors,
      List.Forall₂ (fun d r => SaysRow g c d r ∧ ValidRow g r) docs rows ∧
      List.Forall₂ IsStopRule rows stops ∧ List.Forall₂ IsRowRule rows mirrors ∧
      ∀ x, x ∈ rss.flatten ↔ (∃ r ∈ rows, x = .rightOfWay r) ∨ (∃ d ∈ stops, x = .discreteValue d) ∨
        ∃ d ∈ mirrors, x = .discreteValue d := by
  induction h with
  | nil => exact ⟨[], [], [], .nil, .nil, .nil, by simp⟩
  | cons h _ ih =>
    obtain ⟨rows, stops, mirrors, h1, h2, h3, h4⟩ := ih
    obtain ⟨r, stop, row, hr, hs, hd, rfl⟩ := h
    obtain ⟨stop', hs', hstop⟩ := buildStopRule_ok r
    obtain rfl : stop = stop' := by rw [hs] at hs'; injection hs'
    have hid : stop.id = ruleIdFrom stopTypeId r.id := by rw [hstop.id, stopId_eq]
    rw [hid] at hd
    obtain ⟨hsay, hv1, hv2, hv3, hv4, hv5⟩ := buildRightOfWayRule_says hr
    obtain ⟨hrow, hy, hb⟩ := buildRowRule_ok hv2 hd
    refine ⟨r :: rows, stop :: stops, row :: mirrors,
      .cons ⟨hsay, hv1, hv2, fun name s hs => ⟨hy name s hs, hv3 name s hs⟩, hv4, hv5, hb⟩ h1, .cons hstop h2,
      .cons hrow h3, fun x => ?_⟩
    simp only [List.flatten_cons, List.mem_append, List.mem_cons, List.not_mem_nil, or_false, h4, exists_eq_or_imp]
    generalize (∃ r ∈ rows, x = AnyRule.rightOfWay r) = p1
    generalize (∃ d ∈ stops, x = AnyRule.discreteValue d) = p2
    generalize (∃ d ∈ mirrors, x = AnyRule.discreteValue d) = p3
    tauto

/-- C75: whatever document is loaded, its right-of-way and direction usage rules are valid, the rulebook
consists of exactly those rules and, per right-of-way rule, one rule about stopping in the zone and one with
the same states, and these were all added to an empty rulebook (so that C24 describes every query). -/
theorem rulebook_loader_sound (g : String → Option ℚ) (c : Conv) (root : Doc) (b : Book)
    (h : loadRulebook g c root = .ok b) : ∃ rowDocs dirDocs rows dirs stops mirrors all,
      IsRulebook root rowDocs dirDocs ∧
      List.Forall₂ (fun d r => SaysRow g c d r ∧ ValidRow g r) rowDocs rows ∧
      List.Forall₂ (fun d r => SaysDirection g c d r ∧ ValidDirection g r) dirDocs dirs ∧
      List.Forall₂ IsStopRule rows stops ∧ List.Forall₂ IsRowRule rows mirrors ∧
      b = run (all.map Op.add) ∧ live (all.map Op.add) = all ∧
      (∀ x, x ∈ all ↔ (∃ r ∈ rows, x = .rightOfWay r) ∨ (∃ d ∈ stops, x = .discreteValue d) ∨
        (∃ d ∈ mirrors, x = .discreteValue d) ∨ ∃ r ∈ dirs, x = .directionUsage r) ∧
      ∀ k x, (k, x) ∈ contents (rules b) ↔ k = key x ∧ x ∈ all := by
  obtain ⟨rowDocs, dirDocs, rowss, dirs, h1, h2, h3, h4⟩ := loadRulebook_ok.1 h
  obtain ⟨rows, stops, mirrors, h5, h6, h7, h8⟩ := rowRules_spec h2
  obtain ⟨hn, rfl⟩ := addAll_empty.1 h4
  refine ⟨rowDocs, dirDocs, rows, dirs, stops, mirrors, _, h1, h5, h3, h6, h7, rfl, live_adds hn, ?_, ?_⟩
  · intro x
    simp only [List.mem_append, h8, List.mem_map, eq_comm (b := x), or_assoc]
  · intro k x
    rw [rulebook_rules_partial, live_adds hn]
    intro pre k post he
    have : Op.remove k ∈ List.map Op.add (rowss.flatten ++ dirs.map AnyRule.directionUsage) := by rw [he]; simp
    simp at this

theorem rowRules_of {g : String → Option ℚ} {c : Conv} {docs : List Doc} {rows : List RightOfWayRule}
    (h : List.Forall₂ (fun d r => SaysRow g c d r ∧ ValidRow g r) docs rows) :
    ∃ rss, List.Forall₂ (RowRules g c) docs rss ∧
      (∀ k, k ∈ rss.flatten.map key ↔ ∃ r ∈ rows, k = .rightOfWay r.id ∨
        k = .rule (ruleIdFrom stopTypeId r.id) ∨ k = .rule (ruleIdFrom rowTypeId r.id)) ∧
      ((rows.map (·.id)).Nodup → (rss.flatten.map key).Nodup) := by
  induction h with
  | nil => exact ⟨[], .nil, by simp, by simp⟩
  | @cons d r docs rows h _ ih =>
    obtain ⟨rss, h1, h2, h3⟩ := ih
    obtain ⟨r', hr', hid, hrel, hget⟩ := buildRightOfWayRule_of h.1 h.2
    obtain ⟨stop, hs, hstop⟩ := buildStopRule_ok r'
    obtain ⟨hsay, -, hne, -⟩ := buildRightOfWayRule_says hr'
    obtain ⟨row, hrow⟩ := buildRowRule_of hne (says_names hsay)
      (fun name s hs => (h.2.yields name s ((hget name s).1 hs)).1)
      (by rw [bulbIds, hrel]; exact h.2.bulbs)
    have hsid : stop.id = ruleIdFrom stopTypeId r'.id := by rw [hstop.id, stopId_eq]
    obtain ⟨hrow', -⟩ := buildRowRule_ok hne hrow
    have hrid : row.id = ruleIdFrom rowTypeId r'.id := by rw [hrow'.id, rowId_eq]
    refine ⟨[.rightOfWay r', .discreteValue stop, .discreteValue row] :: rss,
      .cons ⟨r', stop, row, hr', hs, by rw [hsid]; exact hrow, rfl⟩ h1, fun k => ?_, fun hn => ?_⟩
    · simp only [List.flatten_cons, List.map_append, List.mem_append, h2, List.map_cons, List.map_nil, key,
        List.mem_cons, List.not_mem_nil, or_false, hsid, hrid, hid, exists_eq_or_imp]
    · rw [List.map_cons, List.nodup_cons] at hn
      rw [List.flatten_cons, List.map_append, List.nodup_append]
      refine ⟨?_, h3 hn.2, ?_⟩
      · simp only [List.map_cons, List.map_nil, key, hsid, hrid, List.nodup_cons, List.mem_cons,
          List.not_mem_nil, or_false, reduceCtorEq, not_false_eq_true, List.nodup_nil, and_true, true_and,
          IdVariant.rule.injEq]
        exact stopId_ne_rowId _ _
      · intro a ha k hk
        rw [h2] at hk
        obtain ⟨r2, hr2, hk⟩ := hk
        have hne2 : r.id ≠ r2.id := fun he => hn.1 (by rw [he]; exact List.mem_map_of_mem hr2)
        simp only [List.map_cons, List.map_nil, key, hsid, hrid, hid, List.mem_cons, List.not_mem_nil,
          or_false] at ha
        have ne1 := stopId_ne_rowId
        rcases ha with rfl | rfl | rfl <;> rcases hk with rfl | rfl | rfl <;>
          simp only [ne_eq, reduceCtorEq, not_false_eq_true, IdVariant.rule.injEq, IdVariant.rightOfWay.injEq]
        · exact hne2
        · exact fun he => hne2 (stopId_inj he)
        · exact ne1 _ _
        · exact fun he => ne1 _ _ he.symm
        · exact fun he => hne2 (rowId_inj he)

/-- C75: documents that describe valid rules with distinct ids are loaded. -/
theorem rulebook_loader_complete (g : String → Option ℚ) (c : Conv) (root : Doc) (rowDocs dirDocs : List Doc)
    (rows : List RightOfWayRule) (dirs : List DirectionUsageRule) (h : IsRulebook root rowDocs dirDocs)
    (hrows : List.Forall₂ (fun d r => SaysRow g c d r ∧ ValidRow g r) rowDocs rows)
    (hdirs : List.Forall₂ (fun d r => SaysDirection g c d r ∧ ValidDirection g r) dirDocs dirs)
    (hr : (rows.map (·.id)).Nodup) (hd : (dirs.map (·.id)).Nodup) : ∃ b, loadRulebook g c root = .ok b := by
  obtain ⟨rss, h1, h2, h3⟩ := rowRules_of hrows
  refine ⟨_, loadRulebook_ok.2 ⟨rowDocs, dirDocs, rss, dirs, h, h1, hdirs, addAll_empty.2 ⟨?_, rfl⟩⟩⟩
  rw [List.map_append, List.nodup_append]
  refine ⟨h3 hr, ?_, ?_⟩
  · rw [List.map_map, show (key ∘ AnyRule.directionUsage) = IdVariant.directionUsage ∘ (·.id) from rfl,
      ← List.map_map]
    exact hd.map fun a b h => by injection h
  · intro a ha k hk
    rw [h2] at ha
    simp only [List.map_map, List.mem_map, Function.comp_apply, key] at hk
    obtain ⟨r, -, ha⟩ := ha
    obtain ⟨r2, -, rfl⟩ := hk
    rcases ha with rfl | rfl | rfl <;> simp

/-- C75: loading any document either succeeds or throws. -/
theorem rulebook_loader_errors (g : String → Option ℚ) (c : Conv) (root : Doc) (e : Err)
    (h : loadRulebook g c root = .error e) : e = .throws :=
  OnlyThrows.loadRulebook g c root e h

/-! ### A document -/

/-- A road with a lane of length 10. -/
def docLanes (lane : String) : Option ℚ := if lane = "a" then some 10 else none

/-- Enough of the conversion of numbers for the documents below. -/
def docConv : Conv where
  toDouble s := if s = "0" then some 0 else if s = "1" then some 1 else if s = "5" then some 5
    else if s = "100" then some 100 else none
  toInt s := if s = "0" then some 0 else if s = "1" then some 1 else none

/-- A mapping with scalar keys. -/
def docMap (l : List (String × Doc)) : Doc := .map (l.map fun e => (.scalar e.1, e.2))

/-- A rulebook document with a right-of-way rule whose zone has the given range. -/
def bookDoc (s0 s1 : String) : Doc :=
  docMap [("RoadRulebook", docMap [
    ("RightOfWayRules", .seq [docMap [
      ("ID", .scalar "r"),
      ("States", docMap [("Stop", .seq [.scalar "q"]), ("Go", .seq [])]),
      ("Zone", .seq [docMap [("Lane", .scalar "a"), ("SRange", .seq [.scalar s0, .scalar s1])],
        docMap [("Lane", .scalar "a")]]),
      ("ZoneType", .scalar "StopAllowed"),
      ("RelatedBulbGroups", docMap [("light", .seq [.scalar "group"])])]]),
    ("DirectionUsageRules", .seq [docMap [
      ("ID", .scalar "d"),
      ("States", .seq [docMap [("ID", .scalar "s"), ("Type", .scalar "WithS"), ("Severity", .scalar "Strict")]]),
      ("Zone", docMap [("Lane", .scalar "a")])]])])]

/-- The document is loaded: the zone consists of the given range and the whole lane, and the rules are those
of the document and the two that are derived from its right-of-way rule. -/
example :
    (do
      let b ← loadRulebook docLanes docConv (bookDoc "1" "5")
      let r ← getRightOfWay b "r"
      return (r.zone, r.zoneType, r.states.entries.map fun e => e.2.yieldTo) :
        Except Err (List LaneSRange × ZoneType × List (List String))) =
        .ok ([⟨"a", 1, 5⟩, ⟨"a", 0, 10⟩], .stopAllowed, [[], ["q"]]) ∧
    (do
      let b ← loadRulebook docLanes docConv (bookDoc "1" "5")
      let r ← getDirectionUsage b "d"
      return (r.zone, r.states.entries.map fun e => e.2.type) : Except Err (LaneSRange × List DirectionType)) =
        .ok (⟨"a", 0, 10⟩, [.withS]) ∧
    (do
      let b ← loadRulebook docLanes docConv (bookDoc "1" "5")
      return b.discreteValueRules.entries.map fun e => (e.1, e.2.states.map fun v => v.value) :
        Except Err (List (String × List String))) =
        .ok [("Vehicle-Stop-In-Zone-Behavior Rule Type/r", ["UnconstrainedParking"]),
          ("Right-Of-Way Rule Type/r", ["Go", "Stop"])] := by
  decide +kernel

/-- C75: a range that starts behind the end of the lane, and behind its own end, is accepted. -/
theorem rulebook_loader_zone_start :
    (do
      let b ← loadRulebook docLanes docConv (bookDoc "100" "1")
      let r ← getRightOfWay b "r"
      return r.zone : Except Err (List LaneSRange)) = .ok [⟨"a", 100, 1⟩, ⟨"a", 0, 10⟩] := by
  decide +kernel

/-- The end of the range is checked. -/
example : (loadRulebook docLanes docConv (bookDoc "1" "100")).toBool = false := by decide +kernel

/-- The hypotheses of `rulebook_loader_complete` hold of that document: it is loaded, so the rules exist. -/
example : ∃ rowDocs dirDocs rows dirs, IsRulebook (bookDoc "1" "5") rowDocs dirDocs ∧
    List.Forall₂ (fun d r => SaysRow docLanes docConv d r ∧ ValidRow docLanes r) rowDocs rows ∧
    List.Forall₂ (fun d r => SaysDirection docLanes docConv d r ∧ ValidDirection docLanes r) dirDocs dirs ∧
    rows.length = 1 ∧ dirs.length = 1 := by
  have h : (loadRulebook docLanes docConv (bookDoc "1" "5")).toBool = true := by decide +kernel
  have hr : ∀ rowDocs dirDocs, IsRulebook (bookDoc "1" "5") rowDocs dirDocs →
      rowDocs.length = 1 ∧ dirDocs.length = 1 := by
    rintro rowDocs dirDocs ⟨book, h1, h2, h3⟩
    have e1 := lookup_some.2 h1
    rw [lookup] at e1
    injection (show some _ = some book from e1) with e1
    subst e1
    have e2 := lookup_some.2 h2
    have e3 := lookup_some.2 h3
    injection (show some (Doc.seq _) = some _ from e2) with e2
    injection (show some (Doc.seq _) = some _ from e3) with e3
    injection e2 with e2
    injection e3 with e3
    rw [← e2, ← e3]
    exact ⟨rfl, rfl⟩
  cases hb : loadRulebook docLanes docConv (bookDoc "1" "5") with
  | error e => rw [hb] at h; cases h
  | ok b =>
    obtain ⟨rowDocs, dirDocs, rows, dirs, -, -, -, h1, h2, h3, -⟩ := rulebook_loader_sound _ _ _ _ hb
    exact ⟨rowDocs, dirDocs, rows, dirs, h1, h2, h3, by rw [← h2.length_eq, (hr _ _ h1).1],
      by rw [← h3.length_eq, (hr _ _ h1).2]⟩

end Maliput.Props
