import Verif.Spec.GenerateString
import Verif.Lemmas.Files

set_option autoImplicit false

/-!
Lines of the text of a road geometry.
-/
namespace Maliput.RoadText

open Spec

/-- Lines, each with an end of line after it. -/
def ended (ls : List (List Char)) : List Char := ls.flatMap (· ++ ['\n'])

theorem ended_append (a b : List (List Char)) : ended (a ++ b) = ended a ++ ended b := List.flatMap_append

theorem ended_flatMap {α : Type} (f : α → List (List Char)) (l : List α) : ended (l.flatMap f) = l.flatMap fun x => ended (f x) := by
  rw [ended, List.flatMap_assoc]
  rfl

theorem indent_junction (o : Options) : indent (indents o).junction = spaces o .junction := by
  rw [indent, spaces]
  congr 1
  rcases o with ⟨l, g, j, s, a, d⟩
  cases g <;> cases j <;> cases s <;> rfl

theorem indent_segment (o : Options) : indent (indents o).segment = spaces o .segment := by
  rw [indent, spaces]
  congr 1
  rcases o with ⟨l, g, j, s, a, d⟩
  cases g <;> cases j <;> cases s <;> rfl

theorem indent_lane (o : Options) : indent (indents o).lane = spaces o .lane := by
  rw [indent, spaces]
  congr 1
  rcases o with ⟨l, g, j, s, a, d⟩
  cases g <;> cases j <;> cases s <;> rfl

theorem ended_line (o : Options) (p : Part) (id : List Char) : ended (line o p id) =
    if p.shown o then spaces o p ++ (if o.labels then p.label.toList else []) ++ id ++ ['\n'] else [] := by
  rw [line]
  split <;> simp [ended]

theorem ended_details (sp a b c d e f x y z v w : List Char) :
    ended ([a ++ x, b, c ++ y, d ++ z, e ++ v, f ++ w].map (sp ++ ·)) =
      sp ++ a ++ x ++ ['\n'] ++ sp ++ b ++ ['\n'] ++ sp ++ c ++ y ++ ['\n'] ++ sp ++ d ++ z ++ ['\n'] ++
        sp ++ e ++ v ++ ['\n'] ++ sp ++ f ++ w ++ ['\n'] := by
  simp only [ended, List.map_cons, List.map_nil, List.flatMap_cons, List.flatMap_nil, List.append_assoc, List.append_nil]

theorem laneTexts_eq (o : Options) (hl : o.lanes = true) (ls : List Lane) : ∀ result : List Char,
    laneTexts o result ls = result ++ ended (ls.flatMap fun l => line o .lane l.id ++ detailLines o l) := by
  induction ls with
  | nil => intro result; simp [laneTexts, ended]
  | cons l ls ih =>
    intro result
    rw [laneTexts, ih, List.flatMap_cons, ended_append, ended_append, ended_line]
    have hd : ended (detailLines o l) = if o.details then detailText (spaces o .lane) l else [] := by
      rw [detailLines, hl, Bool.true_and]
      cases o.details with
      | false => rfl
      | true => exact ended_details _ _ _ _ _ _ _ _ _ _ _ _
    rw [hd, indent_lane]
    have hs : Part.shown o .lane = true := hl
    rw [hs, if_pos rfl]
    split <;> (try split) <;> simp only [Part.label, List.append_assoc, List.append_nil]

theorem segmentTexts_eq (o : Options) (ss : List Segment) : ∀ result : List Char,
    segmentTexts o result ss = result ++ ended (ss.flatMap fun s => line o .segment s.id ++ s.lanes.flatMap fun l =>
      line o .lane l.id ++ detailLines o l) := by
  induction ss with
  | nil => intro result; simp [segmentTexts, ended]
  | cons s ss ih =>
    intro result
    rw [segmentTexts, ih, List.flatMap_cons, ended_append, ended_append, ended_line, indent_segment]
    have hs : Part.shown o .segment = o.segments := rfl
    rw [hs]
    by_cases hl : o.lanes = true
    · rw [if_pos hl, laneTexts_eq o hl]
      split <;> (try split) <;> simp only [Part.label, List.append_assoc, List.append_nil, List.nil_append]
    · have hno : (s.lanes.flatMap fun l => line o .lane l.id ++ detailLines o l) = [] := by
        rw [List.flatMap_eq_nil_iff]
        intro l _
        have h1 : Part.shown o .lane = o.lanes := rfl
        rw [line, h1, detailLines]
        simp [hl]
      rw [if_neg hl, hno]
      split <;> (try split) <;> simp only [Part.label, List.append_assoc, List.append_nil, List.nil_append, ended, List.flatMap_nil]

theorem junctionTexts_eq (o : Options) (js : List (Option Junction)) : ∀ result : List Char,
    junctionTexts o result js = result ++ ended ((js.filterMap id).flatMap fun j => line o .junction j.id ++
      j.segments.flatMap fun s => line o .segment s.id ++ s.lanes.flatMap fun l => line o .lane l.id ++ detailLines o l) := by
  induction js with
  | nil => intro result; simp [junctionTexts, ended]
  | cons j js ih =>
    intro result
    cases j with
    | none => rw [junctionTexts, ih]; rfl
    | some j =>
      rw [junctionTexts, ih, segmentTexts_eq, indent_junction]
      have hf : (some j :: js).filterMap id = j :: js.filterMap id := rfl
      rw [hf, List.flatMap_cons, ended_append, ended_append, ended_line]
      have hs : Part.shown o .junction = o.junctions := rfl
      rw [hs]
      split <;> (try split) <;> simp only [Part.label, List.append_assoc, List.append_nil, List.nil_append]

theorem ended_unlines (ls : List (List Char)) (h : ls ≠ []) : ended ls = unlines ls ++ ['\n'] := by
  induction ls with
  | nil => exact absurd rfl h
  | cons l ls ih =>
    cases ls with
    | nil => simp [ended, unlines]
    | cons m ls =>
      have e : ended (l :: m :: ls) = l ++ ['\n'] ++ ended (m :: ls) := rfl
      rw [e, ih (by simp)]
      simp [unlines]

theorem generateString_eq (o : Options) (g : RoadGeometry) : generateString o g = unlines (lines o g) := by
  have h : junctionTexts o (if o.geometry then (if o.labels then "geometry: ".toList else []) ++ g.id ++ ['\n'] else [])
      g.junctions = ended (lines o g) := by
    rw [junctionTexts_eq, lines, ended_append, ended_line]
    have hs : Part.shown o .geometry = o.geometry := rfl
    rw [hs]
    congr 1
  rw [generateString]
  dsimp only
  rw [h]
  by_cases hl : lines o g = []
  · rw [hl]
    rfl
  · rw [ended_unlines _ hl]
    simp

theorem split_unlines (ls : List (List Char)) (hne : ls ≠ []) (h : ∀ l ∈ ls, '\n' ∉ l) : Files.split '\n' (unlines ls) = ls := by
  induction ls with
  | nil => exact absurd rfl hne
  | cons p ps ih =>
    have hp := h p (by simp)
    cases ps with
    | nil => exact Files.split_free _ p hp
    | cons q ps =>
      show Files.split '\n' (p ++ '\n' :: unlines (q :: ps)) = _
      rw [Files.split_append, Files.split_free _ p hp, ih (by simp) fun r hr => h r (by simp [hr])]
      rfl

/-- Headed lists in a row can be told apart when heads can be told from what follows them. -/
theorem heads_injective {α : Type} (P : α → Prop) : ∀ xs ys : List (α × List α),
    (∀ x ∈ xs, P x.1 ∧ ∀ b ∈ x.2, ¬ P b) → (∀ y ∈ ys, P y.1 ∧ ∀ b ∈ y.2, ¬ P b) →
    (xs.flatMap fun x => x.1 :: x.2) = (ys.flatMap fun y => y.1 :: y.2) → xs = ys := by
  intro xs
  induction xs with
  | nil =>
    intro ys _ _ h
    cases ys with
    | nil => rfl
    | cons y ys => simp at h
  | cons x xs ih =>
    intro ys hx hy h
    cases ys with
    | nil => simp at h
    | cons y ys =>
      rw [List.flatMap_cons, List.flatMap_cons, List.cons_append, List.cons_append, List.cons.injEq] at h
      obtain ⟨h1, h2⟩ := h
      -- bodies end where the next head is
      have key : ∀ (a b : List α) (r t : List α), (∀ c ∈ a, ¬ P c) → (∀ c ∈ b, ¬ P c) →
          (∀ c r', r = c :: r' → P c) → (∀ c t', t = c :: t' → P c) → a ++ r = b ++ t → a = b ∧ r = t := by
        intro a
        induction a with
        | nil =>
          intro b r t _ hb hr _ he
          cases b with
          | nil => exact ⟨rfl, he⟩
          | cons c b =>
            rw [List.nil_append, List.cons_append] at he
            exact absurd (hr c _ he) (hb c (by simp))
        | cons c a iha =>
          intro b r t ha hb hr ht he
          cases b with
          | nil =>
            rw [List.nil_append, List.cons_append] at he
            exact absurd (ht c _ he.symm) (ha c (by simp))
          | cons d b =>
            rw [List.cons_append, List.cons_append, List.cons.injEq] at he
            obtain ⟨e1, e2⟩ := he
            obtain ⟨e3, e4⟩ := iha b r t (fun c hc => ha c (by simp [hc])) (fun c hc => hb c (by simp [hc])) hr ht e2
            exact ⟨by rw [e1, e3], e4⟩
      have heads : ∀ l : List (α × List α), (∀ x ∈ l, P x.1 ∧ ∀ b ∈ x.2, ¬ P b) →
          ∀ c r', (l.flatMap fun x => x.1 :: x.2) = c :: r' → P c := by
        intro l hl c r' he
        cases l with
        | nil => simp at he
        | cons z l =>
          rw [List.flatMap_cons, List.cons_append, List.cons.injEq] at he
          rw [← he.1]
          exact (hl z (by simp)).1
      obtain ⟨e1, e2⟩ := key x.2 y.2 _ _ (hx x (by simp)).2 (hy y (by simp)).2
        (heads xs fun z hz => hx z (by simp [hz])) (heads ys fun z hz => hy z (by simp [hz])) h2
      rw [Prod.ext h1 e1, ih ys (fun z hz => hx z (by simp [hz])) (fun z hz => hy z (by simp [hz])) e2]

/-- The parts of a road geometry with their ids, each part followed by what is in it. -/
def entries (g : RoadGeometry) : List (Part × List Char) :=
  (.geometry, g.id) :: (g.junctions.filterMap id).flatMap fun j =>
    (.junction, j.id) :: j.segments.flatMap fun s =>
      (.segment, s.id) :: s.lanes.map fun l => (.lane, l.id)

/-- The line of a part. -/
def lineOf (o : Options) (e : Part × List Char) : List Char :=
  spaces o e.1 ++ ((if o.labels then e.1.label.toList else []) ++ e.2)

/-- All parts are shown, without details. -/
def Full (o : Options) : Prop :=
  o.geometry = true ∧ o.junctions = true ∧ o.segments = true ∧ o.lanes = true ∧ o.details = false

theorem line_full {o : Options} (h : Full o) (p : Part) (id : List Char) : line o p id = [lineOf o (p, id)] := by
  have hs : p.shown o = true := by
    obtain ⟨h1, h2, h3, h4, -⟩ := h
    cases p <;> assumption
  rw [line, hs, if_pos rfl, lineOf, List.append_assoc]

theorem lines_full {o : Options} (h : Full o) (g : RoadGeometry) : lines o g = (entries g).map (lineOf o) := by
  have hd : ∀ l, detailLines o l = [] := by
    intro l
    rw [detailLines, h.2.2.2.2, Bool.and_false]
    rfl
  simp only [lines, entries, line_full h, hd, List.append_nil, List.map_cons, List.map_flatMap, List.singleton_append]
  congr 1
  congr 1
  funext j
  congr 2
  funext s
  congr 1
  rw [List.map_map]
  induction s.lanes with
  | nil => rfl
  | cons l ls ih => rw [List.flatMap_cons, ih]; rfl

theorem replicate_inj {a : Char} : ∀ (n m : Nat) (x y : List Char), x.head? ≠ some a → y.head? ≠ some a → x ≠ [] → y ≠ [] →
    List.replicate n a ++ x = List.replicate m a ++ y → n = m ∧ x = y := by
  intro n
  induction n with
  | zero =>
    intro m x y hx hy hx' _ h
    cases m with
    | zero => exact ⟨rfl, h⟩
    | succ m =>
      rw [List.replicate_zero, List.nil_append, List.replicate_succ, List.cons_append] at h
      rw [h] at hx
      exact absurd rfl hx
  | succ n ih =>
    intro m x y hx hy hx' hy' h
    cases m with
    | zero =>
      rw [List.replicate_zero, List.nil_append, List.replicate_succ, List.cons_append] at h
      rw [← h] at hy
      exact absurd rfl hy
    | succ m =>
      rw [List.replicate_succ, List.replicate_succ, List.cons_append, List.cons_append, List.cons.injEq] at h
      obtain ⟨h1, h2⟩ := ih m x y hx hy hx' hy' h.2
      exact ⟨by rw [h1], h2⟩

theorem label_head (p : Part) (x : List Char) : (p.label.toList ++ x).head? ≠ some ' ' ∧ p.label.toList ++ x ≠ [] := by
  cases p <;> exact ⟨by simp [Part.label], by simp [Part.label]⟩

theorem lineOf_injective {o : Options} (h : Full o) {e e' : Part × List Char}
    (hid : o.labels = true ∨ (e.2.head? ≠ some ' ' ∧ e.2 ≠ []) ∧ (e'.2.head? ≠ some ' ' ∧ e'.2 ≠ []))
    (heq : lineOf o e = lineOf o e') : e = e' := by
  obtain ⟨p, x⟩ := e
  obtain ⟨q, y⟩ := e'
  have hgood : ∀ (p : Part) (x : List Char), (o.labels = true ∨ x.head? ≠ some ' ' ∧ x ≠ []) →
      ((if o.labels then p.label.toList else []) ++ x).head? ≠ some ' ' ∧ (if o.labels then p.label.toList else []) ++ x ≠ [] := by
    intro p x hx
    cases hl : o.labels with
    | true => exact label_head p x
    | false =>
      rw [hl] at hx
      exact hx.resolve_left (by simp)
  have h1 := hgood p x (hid.imp_right And.left)
  have h2 := hgood q y (hid.imp_right And.right)
  rw [lineOf, lineOf, spaces, spaces] at heq
  obtain ⟨e1, e2⟩ := replicate_inj _ _ _ _ h1.1 h2.1 h1.2 h2.2 heq
  have hpq : p = q := by
    obtain ⟨g1, g2, g3, g4, -⟩ := h
    have hlen : ∀ p : Part, (p.around.filter (Part.shown o)).length = p.around.length := by
      intro p
      have : p.around.filter (Part.shown o) = p.around := by
        rw [List.filter_eq_self]
        intro a _
        cases a <;> assumption
      rw [this]
    rw [hlen, hlen] at e1
    dsimp only at e1
    clear * - e1
    cases p <;> cases q <;> first | rfl | (exact absurd e1 (by decide))
  subst hpq
  rw [List.append_cancel_left e2]

theorem map_factor {α β γ : Type} (f : α → β) (g : α → γ) (h : ∀ a b, f a = f b → g a = g b) :
    ∀ l m : List α, l.map f = m.map f → l.map g = m.map g := by
  intro l
  induction l with
  | nil =>
    intro m e
    cases m with
    | nil => rfl
    | cons => simp at e
  | cons a l ih =>
    intro m e
    cases m with
    | nil => simp at e
    | cons b m =>
      rw [List.map_cons, List.map_cons, List.cons.injEq] at e ⊢
      exact ⟨h a b e.1, ih m e.2⟩

theorem segments_outline (ss ts : List Segment)
    (h : (ss.flatMap fun s => (Part.segment, s.id) :: s.lanes.map fun l => (Part.lane, l.id)) =
      ts.flatMap fun s => (Part.segment, s.id) :: s.lanes.map fun l => (Part.lane, l.id)) :
    (ss.map fun s => (s.id, s.lanes.map (·.id))) = ts.map fun s => (s.id, s.lanes.map (·.id)) := by
  let F : Segment → (Part × List Char) × List (Part × List Char) := fun s => ((.segment, s.id), s.lanes.map fun l => (Part.lane, l.id))
  have hF : ss.map F = ts.map F := by
    apply heads_injective (fun e => e.1 = Part.segment)
    · intro x hx
      obtain ⟨s, -, rfl⟩ := List.mem_map.mp hx
      refine ⟨rfl, fun b hb => ?_⟩
      obtain ⟨l, -, rfl⟩ := List.mem_map.mp hb
      simp
    · intro x hx
      obtain ⟨s, -, rfl⟩ := List.mem_map.mp hx
      refine ⟨rfl, fun b hb => ?_⟩
      obtain ⟨l, -, rfl⟩ := List.mem_map.mp hb
      simp
    · rw [List.flatMap_map, List.flatMap_map]
      exact h
  refine map_factor F _ ?_ ss ts hF
  intro a b hab
  simp only [F, Prod.mk.injEq, true_and] at hab
  rw [hab.1, map_factor (fun l : Lane => (Part.lane, l.id)) (·.id) (fun a b h => (Prod.mk.inj h).2) _ _ hab.2]

theorem entries_outline (g g' : RoadGeometry) (h : entries g = entries g') : outline g = outline g' := by
  rw [entries, entries, List.cons.injEq, Prod.mk.injEq] at h
  obtain ⟨⟨-, h1⟩, h2⟩ := h
  let F : Junction → (Part × List Char) × List (Part × List Char) := fun j =>
    ((.junction, j.id), j.segments.flatMap fun s => (.segment, s.id) :: s.lanes.map fun l => (Part.lane, l.id))
  have hno : ∀ x : Junction, ∀ b ∈ (F x).2, b.1 ≠ Part.junction := by
    intro x b hb
    obtain ⟨s, -, hb⟩ := List.mem_flatMap.mp hb
    rw [List.mem_cons] at hb
    rcases hb with rfl | hb
    · simp
    · obtain ⟨l, -, rfl⟩ := List.mem_map.mp hb
      simp
  have hF : (g.junctions.filterMap id).map F = (g'.junctions.filterMap id).map F := by
    apply heads_injective (fun e => e.1 = Part.junction)
    · intro x hx
      obtain ⟨j, -, rfl⟩ := List.mem_map.mp hx
      exact ⟨rfl, hno j⟩
    · intro x hx
      obtain ⟨j, -, rfl⟩ := List.mem_map.mp hx
      exact ⟨rfl, hno j⟩
    · rw [List.flatMap_map, List.flatMap_map]
      exact h2
  rw [outline, outline, h1]
  congr 1
  refine map_factor F _ ?_ _ _ hF
  intro a b hab
  simp only [F, Prod.mk.injEq, true_and] at hab
  rw [hab.1, segments_outline _ _ hab.2]

theorem entries_ids (g : RoadGeometry) : ∀ e ∈ entries g, e.2 ∈ ids g := by
  have : (entries g).map (·.2) = ids g := by
    simp only [entries, ids, List.map_cons, List.map_flatMap, List.map_map]
    rfl
  intro e he
  rw [← this]
  exact List.mem_map_of_mem he

end Maliput.RoadText
