import Verif.Lemmas.GenerateString

set_option autoImplicit false

/-!
# C120: the text of a road geometry
-/
namespace Maliput.Props

open RoadText RoadText.Spec

/-- **C120.** The text has a line for every part which is to be shown, each part followed by what is in it, indented by two spaces
for each shown part around it, with its label and its id, and nothing else; null junctions are left out. -/
theorem road_text_lines (o : Options) (g : RoadGeometry) : generateString o g = unlines (lines o g) := generateString_eq o g

/-- **C120.** With all ids shown, the text tells road geometries apart: the same text is only made of the same ids in the same
hierarchy and order, when no id has an end of line and, without labels, no id begins with a space. -/
theorem road_text_tells_apart (o : Options) (g g' : RoadGeometry) (all : o.geometry ∧ o.junctions ∧ o.segments ∧ o.lanes)
    (plain : o.details = false) (good : ∀ i ∈ ids g ++ ids g', '\n' ∉ i ∧ (o.labels ∨ i ≠ [] ∧ i.head? ≠ some ' '))
    (same : generateString o g = generateString o g') : outline g = outline g' := by
  have full : Full o := ⟨all.1, all.2.1, all.2.2.1, all.2.2.2, plain⟩
  have hnl : ∀ g₁ : RoadGeometry, (∀ i ∈ ids g₁, '\n' ∉ i) → ∀ l ∈ (entries g₁).map (lineOf o), '\n' ∉ l := by
    intro g₁ hg l hl
    obtain ⟨e, he, rfl⟩ := List.mem_map.mp hl
    rw [lineOf, List.mem_append, List.mem_append, not_or, not_or]
    refine ⟨?_, ?_, hg _ (entries_ids g₁ e he)⟩
    · rw [spaces, List.mem_replicate]
      rintro ⟨-, h⟩
      exact absurd h (by decide)
    · split
      · cases e.1 <;> decide
      · simp
  rw [generateString_eq, generateString_eq, lines_full full, lines_full full] at same
  have hs := congrArg (Files.split '\n') same
  rw [split_unlines _ (by simp [entries]) (hnl g fun i hi => (good i (by simp [hi])).1),
    split_unlines _ (by simp [entries]) (hnl g' fun i hi => (good i (by simp [hi])).1)] at hs
  apply entries_outline
  -- the lines tell the parts
  have key : ∀ l m : List (Part × List Char), (∀ e ∈ l, e.2 ∈ ids g) → (∀ e ∈ m, e.2 ∈ ids g') →
      l.map (lineOf o) = m.map (lineOf o) → l = m := by
    intro l
    induction l with
    | nil =>
      intro m _ _ e
      cases m with
      | nil => rfl
      | cons => simp at e
    | cons a l ih =>
      intro m h1 h2 e
      cases m with
      | nil => simp at e
      | cons b m =>
        rw [List.map_cons, List.map_cons, List.cons.injEq] at e
        have ga := (good a.2 (by simp [h1 a (by simp)])).2
        have gb := (good b.2 (by simp [h2 b (by simp)])).2
        have hab : a = b := by
          refine lineOf_injective full ?_ e.1
          rcases ga with ga | ga
          · exact .inl ga
          · rcases gb with gb | gb
            · exact .inl gb
            · exact .inr ⟨⟨ga.2, ga.1⟩, gb.2, gb.1⟩
        rw [hab, ih m (fun x hx => h1 x (by simp [hx])) (fun x hx => h2 x (by simp [hx])) e.2]
  exact key _ _ (entries_ids g) (entries_ids g') hs

/-- A road of two segments, of one lane and of two lanes. -/
def textRoad : RoadGeometry :=
  ⟨"town".toList, [some ⟨"j".toList, [⟨"s1".toList, [⟨"a".toList, "10".toList, "(0, 0, 0)".toList, "(10, 0, 0)".toList, none, none⟩]⟩,
    ⟨"s2".toList, [⟨"b".toList, [], [], [], none, some "c".toList⟩, ⟨"c".toList, [], [], [], some "b".toList, none⟩]⟩]⟩, none]⟩

/-- The same lanes in other segments. -/
def otherTextRoad : RoadGeometry :=
  ⟨"town".toList, [some ⟨"j".toList, [⟨"s1".toList, [⟨"a".toList, [], [], [], none, none⟩, ⟨"b".toList, [], [], [], none, none⟩]⟩,
    ⟨"s2".toList, [⟨"c".toList, [], [], [], none, none⟩]⟩]⟩]⟩

example : generateString ⟨true, true, true, true, true, false⟩ textRoad =
    "geometry: town\n  junction: j\n    segment: s1\n      lane: a\n    segment: s2\n      lane: b\n      lane: c".toList := by
  rw [road_text_lines]
  decide

example : generateString ⟨false, false, false, true, true, true⟩ ⟨[], [some ⟨[], [⟨"s".toList, [⟨"a".toList, "1".toList, "p".toList,
    "q".toList, none, some "b".toList⟩]⟩]⟩]⟩ =
    "s\n  a\n    length: 1\n    geo positions:\n      s_min: p\n      s_max: q\n    to left: \n    to right: b".toList := by
  rw [road_text_lines]
  decide

example : generateString ⟨false, true, true, true, true, false⟩ textRoad ≠ generateString ⟨false, true, true, true, true, false⟩ otherTextRoad :=
  fun h => absurd (road_text_tells_apart ⟨false, true, true, true, true, false⟩ textRoad otherTextRoad ⟨rfl, rfl, rfl, rfl⟩ rfl
    (by decide) h) (by decide)

end Maliput.Props
