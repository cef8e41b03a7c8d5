import Verif.Spec.GenerateDot
import Verif.Lemmas.Files

set_option autoImplicit false

/-!
Lemmas about the texts of graphs in the DOT language.
-/
namespace Maliput.Dot

open Spec Files

/-- The text of an edge in front of its label. -/
def start (a b : List Char) : List Char :=
  a ++ ' ' :: (['-', '-'] ++ ' ' :: (b ++ ' ' :: (['['] ++ ' ' :: (['l', 'a', 'b', 'e', 'l'] ++ ' ' :: (['='] ++ ' ' :: [])))))

theorem edgeText_eq (e : Edge) : edgeText e = start e.nodeA e.nodeB ++ '"' :: e.label := by
  simp [edgeText, start]

theorem split_start {a b : List Char} (ha : ' ' ∉ a) (hb : ' ' ∉ b) :
    split ' ' (start a b) = [a, ['-', '-'], b, ['['], ['l', 'a', 'b', 'e', 'l'], ['='], []] := by
  rw [start, split_append, split_append, split_append, split_append, split_append, split_append, split_free _ a ha, split_free _ b hb]
  rfl

theorem not_mem_start {a b : List Char} {c : Char} (ha : c ∉ a) (hb : c ∉ b) (hc : c = '"' ∨ c = '\n') : c ∉ start a b := by
  rcases hc with rfl | rfl <;> simp [start, ha, hb]

/-- The line of an edge. -/
def lineOf (e : Edge) (red : Bool) : List Char :=
  edgeText e ++ "\"".toList ++ (if red then " color = \"red\"".toList else []) ++ " ];".toList

theorem Spec.Writable.chars {e : Edge} (h : Writable e) : (' ' ∉ e.nodeA ∧ ' ' ∉ e.nodeB) ∧ ('"' ∉ e.nodeA ∧ '"' ∉ e.nodeB ∧ '"' ∉ e.label) ∧
    ('\n' ∉ e.nodeA ∧ '\n' ∉ e.nodeB ∧ '\n' ∉ e.label) :=
  ⟨⟨fun m => (h.1 _ (by simp [m])).1 rfl, fun m => (h.1 _ (by simp [m])).1 rfl⟩,
    ⟨fun m => (h.1 _ (by simp [m])).2.1 rfl, fun m => (h.1 _ (by simp [m])).2.1 rfl, fun m => (h.2 _ m).1 rfl⟩,
    fun m => (h.1 _ (by simp [m])).2.2 rfl, fun m => (h.1 _ (by simp [m])).2.2 rfl, fun m => (h.2 _ m).2 rfl⟩

theorem readLine_lineOf {e : Edge} (h : Writable e) (red : Bool) : readLine (lineOf e red) = some ⟨e.nodeA, e.nodeB, e.label, red⟩ := by
  obtain ⟨⟨h1, h2⟩, ⟨h3, h4, h5⟩, -⟩ := h.chars
  have hst := not_mem_start h3 h4 (.inl rfl)
  cases red with
  | false =>
    have hl : lineOf e false = start e.nodeA e.nodeB ++ '"' :: (e.label ++ '"' :: " ];".toList) := by
      simp [lineOf, edgeText_eq]
    have hs : split '"' (lineOf e false) = [start e.nodeA e.nodeB, e.label, " ];".toList] := by
      rw [hl, split_append, split_append, split_free _ _ hst, split_free _ _ h5]
      rfl
    rw [readLine, hs]
    dsimp only
    rw [split_start h1 h2]
    rfl
  | true =>
    have hl : lineOf e true = start e.nodeA e.nodeB ++ '"' :: (e.label ++ '"' :: (" color = ".toList ++ '"' :: ("red".toList ++
        '"' :: " ];".toList))) := by
      simp [lineOf, edgeText_eq]
    have hs : split '"' (lineOf e true) = [start e.nodeA e.nodeB, e.label, " color = ".toList, "red".toList, " ];".toList] := by
      rw [hl, split_append, split_append, split_free _ _ hst, split_free _ _ h5]
      rfl
    rw [readLine, hs]
    dsimp only
    rw [split_start h1 h2]
    rfl

theorem lineOf_one_line {e : Edge} (h : Writable e) (red : Bool) : '\n' ∉ lineOf e red := by
  obtain ⟨-, -, h1, h2, h3⟩ := h.chars
  have := not_mem_start h1 h2 (.inr rfl)
  cases red <;> simp [lineOf, edgeText_eq, this, h3]

theorem routeTexts_eq (segments : List Nat) (es : List Edge) :
    routeTexts segments es = es.flatMap fun e => lineOf e (segments.contains e.segment) ++ ['\n'] := by
  induction es with
  | nil => rfl
  | cons e es ih =>
    rw [routeTexts, ih, List.flatMap_cons]
    have : " ];\n".toList = " ];".toList ++ ['\n'] := by decide
    rw [this, lineOf, ← List.append_assoc]

theorem edgeTexts_eq (es : List Edge) : edgeTexts es = es.flatMap fun e => lineOf e false ++ ['\n'] := by
  induction es with
  | nil => rfl
  | cons e es ih =>
    rw [edgeTexts, ih, List.flatMap_cons]
    have : "\" ];\n".toList = "\"".toList ++ ([] ++ (" ];".toList ++ ['\n'])) := by decide
    rw [this, lineOf]
    simp only [← List.append_assoc, Bool.false_eq_true, if_false]

theorem split_lines (rest : List Char) (ls : List (List Char)) (h : ∀ l ∈ ls, '\n' ∉ l) :
    split '\n' ((ls.flatMap fun l => l ++ ['\n']) ++ rest) = ls ++ split '\n' rest := by
  induction ls with
  | nil => rfl
  | cons l ls ih =>
    rw [List.flatMap_cons, List.append_assoc, List.append_assoc, List.singleton_append, split_append,
      split_free _ _ (h l (by simp)), ih fun l' hl' => h l' (by simp [hl'])]
    rfl

theorem read_lines (es : List Edge) (red : Edge → Bool) (h : ∀ e ∈ es, Writable e) :
    readGraph ("graph {\n".toList ++ (es.flatMap fun e => lineOf e (red e) ++ ['\n']) ++ "}\n".toList) =
      some (es.map fun e => ⟨e.nodeA, e.nodeB, e.label, red e⟩) := by
  have hs : split '\n' ("graph {\n".toList ++ (es.flatMap fun e => lineOf e (red e) ++ ['\n']) ++ "}\n".toList) =
      "graph {".toList :: (es.map fun e => lineOf e (red e)) ++ [['}'], []] := by
    have h1 : "graph {\n".toList = "graph {".toList ++ ['\n'] := by decide
    have h2 : (es.flatMap fun e => lineOf e (red e) ++ ['\n']) = (es.map fun e => lineOf e (red e)).flatMap fun l => l ++ ['\n'] := by
      rw [List.flatMap_map]
    rw [h1, h2, List.append_assoc, List.append_assoc, List.singleton_append, split_append, split_lines]
    · rfl
    · intro l hl
      obtain ⟨e, he, rfl⟩ := List.mem_map.mp hl
      exact lineOf_one_line (h e he) _
  have hm : (es.map fun e => lineOf e (red e)).mapM readLine = some (es.map fun e => (⟨e.nodeA, e.nodeB, e.label, red e⟩ : Drawn)) := by
    clear hs
    induction es with
    | nil => rfl
    | cons e es ih =>
      rw [List.map_cons, List.mapM_cons, readLine_lineOf (h e (by simp)), ih fun e' he' => h e' (by simp [he'])]
      rfl
  rw [readGraph, hs, List.cons_append]
  dsimp only
  rw [List.reverse_append]
  simp only [List.reverse_cons, List.reverse_nil, List.nil_append, List.cons_append]
  rw [if_pos ⟨trivial, trivial⟩, List.reverse_reverse, hm]

theorem routeSegments_ok (es : List Edge) (route : List (List Nat)) (segments : List Nat) (h : routeSegments es route = .ok segments) :
    route.map List.head? = segments.map some ∧ ∀ s ∈ segments, ∃ e ∈ es, e.segment = s := by
  induction route generalizing segments with
  | nil =>
    cases h
    exact ⟨rfl, by simp⟩
  | cons phase phases ih =>
    cases phase with
    | nil => exact absurd h (by simp [routeSegments, bind, Except.bind])
    | cons s rest =>
      rw [routeSegments] at h
      by_cases hc : (es.any fun e => e.segment == s) = true
      · cases hr : routeSegments es phases with
        | error er =>
          rw [hr] at h
          simp [bind, Except.bind, throwUnless, hc] at h
        | ok segs =>
          rw [hr] at h
          simp [bind, Except.bind, throwUnless, hc, pure, Except.pure] at h
          subst h
          obtain ⟨i1, i2⟩ := ih segs hr
          refine ⟨by simp [i1], fun s' hs' => ?_⟩
          rcases List.mem_cons.mp hs' with rfl | hs'
          · obtain ⟨e, he, heq⟩ := List.any_eq_true.mp hc
            exact ⟨e, he, by simpa using heq⟩
          · exact i2 s' hs'
      · simp [bind, Except.bind, throwUnless, hc] at h

theorem routeSegments_complete (es : List Edge) (route : List (List Nat)) (h : ∀ p ∈ route, p ≠ []) :
    (∃ segments, routeSegments es route = .ok segments) ∨
      routeSegments es route = .error .throws ∧ ∃ p ∈ route, ∃ s, p.head? = some s ∧ ∀ e ∈ es, e.segment ≠ s := by
  induction route with
  | nil => exact .inl ⟨[], rfl⟩
  | cons phase phases ih =>
    cases phase with
    | nil => exact absurd rfl (h [] (by simp))
    | cons s rest =>
      rw [routeSegments]
      by_cases hc : (es.any fun e => e.segment == s) = true
      · rcases ih fun p hp => h p (by simp [hp]) with ⟨segs, hr⟩ | ⟨hr, p, hp, s', hs', hn⟩
        · exact .inl ⟨s :: segs, by simp [bind, Except.bind, throwUnless, hc, pure, Except.pure, hr]⟩
        · exact .inr ⟨by simp [bind, Except.bind, throwUnless, hc, hr], p, by simp [hp], s', hs', hn⟩
      · refine .inr ⟨by simp [bind, Except.bind, throwUnless, hc], s :: rest, by simp, s, rfl, fun e he heq => hc ?_⟩
        exact List.any_eq_true.mpr ⟨e, he, by simp [heq]⟩

end Maliput.Dot
