import Verif.Lemmas.RoadMeshCover

set_option autoImplicit false

/-! The faces that are made for a lane. -/
namespace Maliput.Props

open Maliput.RoadMesh
open Maliput.RoadMesh.Spec

/-! ### Example lanes -/

/-- A straight lane of constant width along the first axis. -/
def meshLane : Lane where
  id := "straight"
  length := 10
  laneBounds _ := ⟨-2, 2, by norm_num, by norm_num⟩
  segmentBounds _ := ⟨-2, 6, by norm_num, by norm_num⟩
  elevationBounds _ _ := ⟨0, 5, by norm_num, by norm_num⟩
  toInertial p := p.vec
  orientation _ := ![![1, 0, 0], ![0, 1, 0], ![0, 0, 1]]
  linearTolerance := 1 / 100

/-- A straight lane whose left bound moves away from the center line. -/
def wideningLane : Lane := { meshLane with
  length := 1
  laneBounds s := ⟨-1, 1 + 2 * |s|, by norm_num, by positivity⟩
  segmentBounds s := ⟨-1, 1 + 2 * |s|, by norm_num, by positivity⟩ }

/-- The sum of the differences of the coordinates, as an example of a distance. -/
def taxicab (a b : Pos) : ℚ := |a 0 - b 0| + |a 1 - b 1| + |a 2 - b 2|

/-! ### C83: the mesh of a grid -/

/-- C83.  For a grid of a positive size and a tolerance that is not negative, covering a lane off the optimized way
ends.  The lane is cut into strips whose length is that of the grid, except for the last one, which may be shorter or
longer by less than the tolerance.  The faces of each strip cover, on either side of the center line, all points up to
where the faces that fit beside the shorter edge reach.  All faces are seen from above, counterclockwise and not
degenerate; all vertices are on the lane, within its bounds and at the elevation asked for. -/
theorem precise_mesh_faces (dist : Pos → Pos → ℚ) (l : Lane) (g : ℚ) (seg : Bool) (elevation : ℚ → ℚ → ℚ) (hg : 0 < g)
    (ht : 0 ≤ l.linearTolerance) (hl : 0 ≤ l.length) :
    ∃ stations fss N, Stations l.length stations ∧
      (∀ n ≥ N, coverLane dist n l g seg elevation false = .ok fss.flatten) ∧
      List.Forall₂ (fun p fs =>
        (p.2 - p.1 = g ∨ p.2 = l.length ∧ p.2 - p.1 < g + l.linearTolerance) ∧
        covered fs = LeftSide g p.1 p.2 (bounds l seg p.1) (bounds l seg p.2) ∪
          RightSide g p.1 p.2 (bounds l seg p.1) (bounds l seg p.2) ∧
        ∀ f ∈ fs, StrictlyCounterclockwise f ∧ f.normal = ⟨0, 0, 1⟩ ∧ ∀ v ∈ f.vertices, OnLane l seg elevation v)
        (strips stations) fss := by
  obtain ⟨st, fss, N, h1, h2, h3⟩ := outer_loop_all hg hl (fun b n s => preciseLoop b l g seg elevation n s)
    (fun s0 s1 fs => (s1 - s0 = g ∨ s1 = l.length ∧ s1 - s0 < g + l.linearTolerance) ∧
        covered fs = LeftSide g s0 s1 (bounds l seg s0) (bounds l seg s1) ∪
          RightSide g s0 s1 (bounds l seg s0) (bounds l seg s1) ∧
        ∀ f ∈ fs, StrictlyCounterclockwise f ∧ f.normal = ⟨0, 0, 1⟩ ∧ ∀ v ∈ f.vertices, OnLane l seg elevation v)
    (fun b n => by simp [preciseLoop, pure, Except.pure]) (by
      intro s0 h0 hs
      obtain ⟨n1, n2, n3⟩ := nextStation_ok (tol := l.linearTolerance) hg ht hs
      obtain ⟨left, right, N, a, b, c, d⟩ := sides_ok l seg elevation hg h0 n1 n2
      refine ⟨nextStation g l.linearTolerance l.length s0, left ++ right, N, n1, n2, ?_, ⟨?_, c, d⟩, ?_⟩
      · rcases n3 with h | h
        · exact .inl (by linarith)
        · exact .inr h.1
      · rcases n3 with h | h
        · exact .inl h
        · exact .inr ⟨h.1, by rw [h.1]; exact h.2⟩
      · intro bd hb n r hr
        simp only [preciseLoop, hs, if_true, a bd hb, b bd hb, hr, bind, Except.bind, pure, Except.pure])
  exact ⟨st, fss, N, h1, fun n hn => by simp only [coverLane, Bool.false_eq_true, if_false]; exact h3 n hn, h2⟩

/-- C83.  The faces of a strip do not reach beyond the straight lines between the bounds at its ends, and they cover
all points between those if as many faces fit beside the edge at its start as at its end. -/
theorem precise_mesh_strip (g s0 s1 : ℚ) (b0 b1 : RBounds) (hg : 0 < g) :
    LeftSide g s0 s1 b0 b1 ∪ RightSide g s0 s1 b0 b1 ⊆ Between s0 s1 b0 b1 ∧
    (⌈b0.max / g⌉ = ⌈b1.max / g⌉ → ⌈-b0.min / g⌉ = ⌈-b1.min / g⌉ → b0.min < b0.max →
      LeftSide g s0 s1 b0 b1 ∪ RightSide g s0 s1 b0 b1 = Between s0 s1 b0 b1) :=
  ⟨sides_within g s0 s1 b0 b1, fun hl hr hw => sides_full hg hl hr hw⟩

/-- C83.  A lane of constant width is covered completely, and nothing else is. -/
theorem precise_mesh_constant_width_partial (dist : Pos → Pos → ℚ) (l : Lane) (g : ℚ) (seg : Bool) (elevation : ℚ → ℚ → ℚ)
    (hg : 0 < g) (ht : 0 ≤ l.linearTolerance) (hl : 0 < l.length) (b : RBounds) (hb : b.min < b.max)
    (hc : ∀ s, (if seg then l.segmentBounds s else l.laneBounds s) = b) :
    ∃ fs N, (∀ n ≥ N, coverLane dist n l g seg elevation false = .ok fs) ∧
      covered fs = {p | 0 ≤ p.1 ∧ p.1 ≤ l.length ∧ b.min ≤ p.2 ∧ p.2 ≤ b.max} := by
  obtain ⟨st, fss, N, h1, h2, h3⟩ := precise_mesh_faces dist l g seg elevation hg ht hl.le
  have hbb : ∀ s, bounds l seg s = b := hc
  refine ⟨fss.flatten, N, h2, ?_⟩
  rw [covered_flatten (R := fun p => Strip p.1 p.2 b.min b.min b.max b.max) (h3.imp fun p fs h => by
    rw [h.2.1, hbb, hbb, sides_full hg rfl rfl hb]; rfl)]
  exact rectangle hl h1 _ _

/-- C83.  A lane whose width changes is not covered completely, although its bounds are straight lines: there are
points between them that no face covers. -/
theorem precise_mesh_gap : ∃ fs, (∀ dist, ∀ n ≥ 3, coverLane dist n wideningLane 1 false (fun _ _ => 0) false = .ok fs) ∧
    ∃ p : ℚ × ℚ, 0 ≤ p.1 ∧ p.1 ≤ wideningLane.length ∧ (wideningLane.laneBounds p.1).min ≤ p.2 ∧
      p.2 ≤ (wideningLane.laneBounds p.1).max ∧ p ∉ covered fs := by
  refine ⟨[⟨[⟨0, 0, 0⟩, ⟨1, 0, 0⟩, ⟨1, 1, 0⟩, ⟨0, 1, 0⟩], up⟩, ⟨[⟨0, 0, 0⟩, ⟨0, -1, 0⟩, ⟨1, -1, 0⟩, ⟨1, 0, 0⟩], up⟩],
    ?_, (1, 2), by norm_num, by norm_num [wideningLane], by norm_num [wideningLane], by norm_num [wideningLane], ?_⟩
  · intro dist n hn
    obtain ⟨n, rfl⟩ : ∃ m, n = m + 3 := ⟨n - 3, by omega⟩
    norm_num [coverLane, preciseLoop, nextStation, wideningLane, meshLane, bounds, leftLoop, rightLoop, vertex, bind,
      Except.bind, pure, Except.pure]
  · intro h
    have := covered_le (c := 1) (by
      intro f hf v hv
      simp only [List.mem_cons, List.not_mem_nil, or_false] at hf
      rcases hf with rfl | rfl <;> simp only [List.mem_cons, List.not_mem_nil, or_false] at hv <;>
        rcases hv with rfl | rfl | rfl | rfl <;> norm_num) _ h
    norm_num at this

/-- The example meets the hypotheses. -/
example : coverLane taxicab 4 { meshLane with length := 3 / 2 } 1 false (fun _ _ => 0) false = .ok [
    ⟨[⟨0, 0, 0⟩, ⟨1, 0, 0⟩, ⟨1, 1, 0⟩, ⟨0, 1, 0⟩], up⟩, ⟨[⟨0, 1, 0⟩, ⟨1, 1, 0⟩, ⟨1, 2, 0⟩, ⟨0, 2, 0⟩], up⟩,
    ⟨[⟨0, 0, 0⟩, ⟨0, -1, 0⟩, ⟨1, -1, 0⟩, ⟨1, 0, 0⟩], up⟩, ⟨[⟨0, -1, 0⟩, ⟨0, -2, 0⟩, ⟨1, -2, 0⟩, ⟨1, -1, 0⟩], up⟩,
    ⟨[⟨1, 0, 0⟩, ⟨3 / 2, 0, 0⟩, ⟨3 / 2, 1, 0⟩, ⟨1, 1, 0⟩], up⟩,
    ⟨[⟨1, 1, 0⟩, ⟨3 / 2, 1, 0⟩, ⟨3 / 2, 2, 0⟩, ⟨1, 2, 0⟩], up⟩,
    ⟨[⟨1, 0, 0⟩, ⟨1, -1, 0⟩, ⟨3 / 2, -1, 0⟩, ⟨3 / 2, 0, 0⟩], up⟩,
    ⟨[⟨1, -1, 0⟩, ⟨1, -2, 0⟩, ⟨3 / 2, -2, 0⟩, ⟨3 / 2, -1, 0⟩], up⟩] := by decide +kernel

/-! ### C84: the optimized mesh -/

/-- C84.  For a grid of a positive size, covering a lane the optimized way ends.  The lane is cut into strips that are
not shorter than the grid unless the lane ends.  Each of them is longer than that only if the center line and the
bounds of the lane are straight enough, or so are all but less than the grid of its end.  The two triangles of a strip
cover all points between its bounds at both ends, and nothing else.  They are seen from above and counterclockwise; all
vertices are on the lane, on one of its bounds and at the elevation asked for. -/
theorem optimized_mesh_faces (dist : Pos → Pos → ℚ) (l : Lane) (g : ℚ) (seg : Bool) (elevation : ℚ → ℚ → ℚ)
    (hg : 0 < g) (hl : 0 ≤ l.length) :
    ∃ stations fss N, Stations l.length stations ∧
      (∀ n ≥ N, coverLane dist n l g seg elevation true = .ok fss.flatten) ∧
      List.Forall₂ (fun p fs =>
        min g (l.length - p.1) ≤ p.2 - p.1 ∧ GoodStep dist l g p.1 (p.2 - p.1) ∧
        fs.length = 2 ∧ covered fs = Between p.1 p.2 (bounds l seg p.1) (bounds l seg p.2) ∧
        ∀ f ∈ fs, f.vertices.length = 3 ∧ Counterclockwise f ∧ f.normal = ⟨0, 0, 1⟩ ∧
          ∀ v ∈ f.vertices, OnLane l seg elevation v)
        (strips stations) fss := by
  obtain ⟨st, fss, N, h1, h2, h3⟩ := outer_loop_all hg hl (fun b n s => optimizedLoop dist b l g seg elevation n s)
    (fun s0 s1 fs => min g (l.length - s0) ≤ s1 - s0 ∧ GoodStep dist l g s0 (s1 - s0) ∧
        fs.length = 2 ∧ covered fs = Between s0 s1 (bounds l seg s0) (bounds l seg s1) ∧
        ∀ f ∈ fs, f.vertices.length = 3 ∧ Counterclockwise f ∧ f.normal = ⟨0, 0, 1⟩ ∧
          ∀ v ∈ f.vertices, OnLane l seg elevation v)
    (fun b n => by simp [optimizedLoop, pure, Except.pure]) (by
      intro s0 h0 hs
      obtain ⟨step, N, a, b, c, d⟩ := sampleStep_ok dist l h0 hs hg
      have hpos : 0 < step := lt_of_lt_of_le (lt_min hg (by linarith)) b
      have e : s0 + step - s0 = step := by ring
      refine ⟨s0 + step, triangles elevation s0 (s0 + step) (bounds l seg s0) (bounds l seg (s0 + step)), N, by linarith,
        by linarith, ?_, ⟨by rw [e]; exact b, by rw [e]; exact d, rfl, triangles_covered _ _ _ _ _, ?_⟩, ?_⟩
      · rcases le_total g (l.length - s0) with h | h
        · rw [min_eq_left h] at b; exact .inl (by linarith)
        · rw [min_eq_right h] at b; exact .inr (by linarith)
      · intro f hf
        obtain ⟨f1, f2⟩ := triangles_ccw elevation (by linarith) _ _ f hf
        have w0 := (bounds l seg s0).min_le.trans (bounds l seg s0).le_max
        have w1 := (bounds l seg (s0 + step)).min_le.trans (bounds l seg (s0 + step)).le_max
        refine ⟨?_, f1, f2, ?_⟩
        · simp only [triangles, List.mem_cons, List.not_mem_nil, or_false] at hf
          rcases hf with rfl | rfl <;> rfl
        · intro v hv
          simp only [triangles, List.mem_cons, List.not_mem_nil, or_false] at hf
          rcases hf with rfl | rfl <;> simp only [List.mem_cons, List.not_mem_nil, or_false] at hv <;>
            rcases hv with rfl | rfl | rfl <;> refine onLane_of ?_ ?_ ?_ ?_ rfl <;> dsimp only [vertex] <;>
            first | exact le_rfl | exact w0 | exact w1 | linarith
      · intro bd hb n r hr
        simp only [optimizedLoop, hs, if_true, a bd hb, hr, bind, Except.bind, pure, Except.pure])
  exact ⟨st, fss, N, h1, fun n hn => by simp only [coverLane, if_true]; exact h3 n hn, h2⟩

/-- C84.  A lane of constant width is covered completely, and nothing else is. -/
theorem optimized_mesh_constant_width (dist : Pos → Pos → ℚ) (l : Lane) (g : ℚ) (seg : Bool) (elevation : ℚ → ℚ → ℚ)
    (hg : 0 < g) (hl : 0 < l.length) (b : RBounds)
    (hc : ∀ s, (if seg then l.segmentBounds s else l.laneBounds s) = b) :
    ∃ fs N, (∀ n ≥ N, coverLane dist n l g seg elevation true = .ok fs) ∧
      covered fs = {p | 0 ≤ p.1 ∧ p.1 ≤ l.length ∧ b.min ≤ p.2 ∧ p.2 ≤ b.max} := by
  obtain ⟨st, fss, N, h1, h2, h3⟩ := optimized_mesh_faces dist l g seg elevation hg hl.le
  have hbb : ∀ s, bounds l seg s = b := hc
  refine ⟨fss.flatten, N, h2, ?_⟩
  rw [covered_flatten (R := fun p => Strip p.1 p.2 b.min b.min b.max b.max) (h3.imp fun p fs h => by
    rw [h.2.2.2.1, hbb, hbb]; rfl)]
  exact rectangle hl h1 _ _

/-- A straight lane gets two triangles. -/
example : coverLane taxicab 6 meshLane 1 true (fun _ _ => 1) true = .ok [
    ⟨[⟨0, 6, 1⟩, ⟨0, -2, 1⟩, ⟨10, 6, 1⟩], up⟩, ⟨[⟨0, -2, 1⟩, ⟨10, -2, 1⟩, ⟨10, 6, 1⟩], up⟩] := by decide +kernel

/-- A lane without length gets no faces in either mesh. -/
example (optimize : Bool) : coverLane taxicab 1 { meshLane with length := 0 } 1 false (fun _ _ => 0) optimize = .ok [] := by
  cases optimize <;> decide +kernel

/-! ### C85: stripes -/

/-- C85.  For a grid of a positive size, a tolerance and a width that are not negative, drawing the stripes of a lane
ends.  Each strip of the lane gets two quadrilaterals at the elevation asked for, which cover exactly the points at most
half the width to the left or right of the straight line between the left bounds of the lane at both ends, and the same
around the right bounds. -/
theorem stripes_faces (l : Lane) (g h width : ℚ) (hg : 0 < g) (ht : 0 ≤ l.linearTolerance) (hw : 0 ≤ width)
    (hl : 0 ≤ l.length) :
    ∃ stations fss N, Stations l.length stations ∧ (∀ n ≥ N, stripes n l g h width = .ok fss.flatten) ∧
      List.Forall₂ (fun p fs =>
        (p.2 - p.1 = g ∨ p.2 = l.length ∧ p.2 - p.1 < g + l.linearTolerance) ∧ fs.length = 2 ∧
        covered fs =
          Strip p.1 p.2 ((l.laneBounds p.1).max - width / 2) ((l.laneBounds p.2).max - width / 2)
            ((l.laneBounds p.1).max + width / 2) ((l.laneBounds p.2).max + width / 2) ∪
          Strip p.1 p.2 ((l.laneBounds p.1).min - width / 2) ((l.laneBounds p.2).min - width / 2)
            ((l.laneBounds p.1).min + width / 2) ((l.laneBounds p.2).min + width / 2) ∧
        ∀ f ∈ fs, Flat h f) (strips stations) fss := by
  have one : ∀ s0 s1 r0 r1 : ℚ, s0 < s1 → Flat h (stripe s0 s1 r0 r1 (1 / 2 * width) h) ∧
      area (stripe s0 s1 r0 r1 (1 / 2 * width) h) =
        Strip s0 s1 (r0 - width / 2) (r1 - width / 2) (r0 + width / 2) (r1 + width / 2) := by
    intro s0 s1 r0 r1 hs
    have hm := mul_nonneg (sub_nonneg.2 hs.le) hw
    refine ⟨⟨ccw4 ?_ ?_ ?_ ?_, rfl, ?_⟩, area_strip (by linarith) (by linarith) _ ?_⟩
    · simp only [turn]; linarith
    · simp only [turn]; linarith
    · simp only [turn]; linarith
    · simp only [turn]; linarith
    · intro v hv
      simp only [stripe, List.mem_cons, List.not_mem_nil, or_false] at hv
      rcases hv with rfl | rfl | rfl | rfl <;> rfl
    · intro p
      have : (1 / 2 * width : ℚ) = width / 2 := by ring
      simp only [stripe, this, List.mem_cons, List.not_mem_nil, or_false, exists_eq_or_imp, exists_eq_left]
      tauto
  obtain ⟨st, fss, N, h1, h2, h3⟩ := outer_loop_all hg hl (fun _ n s => stripeLoop l g h (1 / 2 * width) n s)
    (fun s0 s1 fs => (s1 - s0 = g ∨ s1 = l.length ∧ s1 - s0 < g + l.linearTolerance) ∧ fs.length = 2 ∧
        covered fs =
          Strip s0 s1 ((l.laneBounds s0).max - width / 2) ((l.laneBounds s1).max - width / 2)
            ((l.laneBounds s0).max + width / 2) ((l.laneBounds s1).max + width / 2) ∪
          Strip s0 s1 ((l.laneBounds s0).min - width / 2) ((l.laneBounds s1).min - width / 2)
            ((l.laneBounds s0).min + width / 2) ((l.laneBounds s1).min + width / 2) ∧
        ∀ f ∈ fs, Flat h f)
    (fun b n => by simp [stripeLoop, pure, Except.pure]) (by
      intro s0 h0 hs
      obtain ⟨n1, n2, n3⟩ := nextStation_ok (tol := l.linearTolerance) hg ht hs
      generalize hn : nextStation g l.linearTolerance l.length s0 = s1 at n1 n2 n3
      obtain ⟨a, a'⟩ := one s0 s1 (l.laneBounds s0).max (l.laneBounds s1).max n1
      obtain ⟨b, b'⟩ := one s0 s1 (l.laneBounds s0).min (l.laneBounds s1).min n1
      refine ⟨s1, [stripe s0 s1 (l.laneBounds s0).max (l.laneBounds s1).max (1 / 2 * width) h,
        stripe s0 s1 (l.laneBounds s0).min (l.laneBounds s1).min (1 / 2 * width) h], 0, n1, n2, ?_, ⟨?_, rfl, ?_, ?_⟩, ?_⟩
      · rcases n3 with h | h
        · exact .inl (by linarith)
        · exact .inr h.1
      · rcases n3 with h | h
        · exact .inl h
        · exact .inr ⟨h.1, by rw [h.1]; exact h.2⟩
      · rw [covered_cons, covered_cons, covered_nil, Set.union_empty, a', b']
      · intro f hf
        simp only [List.mem_cons, List.not_mem_nil, or_false] at hf
        rcases hf with rfl | rfl
        · exact a
        · exact b
      · intro bd hb n r hr
        simp only [stripeLoop, hs, if_true, hn, hr, bind, Except.bind, pure, Except.pure, List.cons_append, List.nil_append])
  exact ⟨st, fss, N, h1, h3, h2⟩

/-- C85.  The stripe of a lane at the border of a segment is partly outside the segment: positions are asked for that
are not within the bounds of the segment. -/
theorem stripes_outside_segment : ∃ fs, (∀ n ≥ 2, stripes n meshLane 10 0 (1 / 4) = .ok fs) ∧
    ∃ f ∈ fs, ∃ v ∈ f.vertices, v.r < (meshLane.segmentBounds v.s).min := by
  refine ⟨[⟨[⟨0, 15 / 8, 0⟩, ⟨10, 15 / 8, 0⟩, ⟨10, 17 / 8, 0⟩, ⟨0, 17 / 8, 0⟩], up⟩,
    ⟨[⟨0, -17 / 8, 0⟩, ⟨10, -17 / 8, 0⟩, ⟨10, -15 / 8, 0⟩, ⟨0, -15 / 8, 0⟩], up⟩], ?_, ?_⟩
  · intro n hn
    obtain ⟨n, rfl⟩ : ∃ m, n = m + 2 := ⟨n - 2, by omega⟩
    norm_num [stripes, stripeLoop, stripe, nextStation, meshLane, bind, Except.bind, pure, Except.pure]
  · exact ⟨_, by simp only [List.mem_cons]; exact .inr (.inl rfl), ⟨0, -17 / 8, 0⟩, by simp, by norm_num [meshLane]⟩

/-! ### C86: arrows -/

/-- C86.  For a grid of a positive size and a tolerance that is not negative, marking the ends of a lane succeeds.  An
arrow is as long as the lane is wide at its end, but at most three tenths of the length of the lane.  There is one at
either end if it is longer than the tolerance, and only then.  The faces of an arrow cover exactly the triangle that
points forward and whose base is four fifths of the lane; the first begins at the tolerance and the second ends at the
tolerance before the end. -/
theorem mark_lane_ends_faces (l : Lane) (g h : ℚ) (hg : 0 < g) (ht : 0 ≤ l.linearTolerance) :
    let size s := min (3 / 10 * l.length) ((l.laneBounds s).max - (l.laneBounds s).min)
    let arrow s n := Triangle s n (4 / 5 * (l.laneBounds s).max) (4 / 5 * -(l.laneBounds s).min)
    ∃ start finish, markLaneEnds l g h = .ok (start ++ finish) ∧ (∀ f ∈ start ++ finish, Flat h f) ∧
      (if l.linearTolerance < size 0 then covered start = arrow l.linearTolerance (size 0) else start = []) ∧
      (if l.linearTolerance < size l.length then
        covered finish = arrow (l.length - l.linearTolerance - size l.length) (size l.length) else finish = []) := by
  intro size arrow
  have hsize : ∀ s, size s ≤ 3 / 10 * l.length := fun s => min_le_left _ _
  have hstart : ∃ fs, (if l.linearTolerance + size 0 < l.length ∧ size 0 > l.linearTolerance then
      drawArrow l g (0 + l.linearTolerance) (size 0) h else .ok []) = .ok fs ∧ (∀ f ∈ fs, Flat h f) ∧
      (if l.linearTolerance < size 0 then covered fs = arrow l.linearTolerance (size 0) else fs = []) := by
    by_cases hn : l.linearTolerance < size 0
    · have := hsize 0
      have hlen : l.linearTolerance + size 0 < l.length := by linarith
      obtain ⟨fs, a, b, c⟩ := drawArrow_ok l h hg (offset := 0 + l.linearTolerance) (size := size 0) (by linarith)
        (by linarith) (by linarith)
      rw [zero_add, mul_comm, mul_comm (-_)] at c
      exact ⟨fs, by rw [if_pos ⟨hlen, hn⟩, a], b, by rw [if_pos hn]; exact c⟩
    · exact ⟨[], by rw [if_neg fun h => hn h.2], by simp, by rw [if_neg hn]⟩
  have hfinish : ∃ fs, (if l.length - l.linearTolerance - size l.length > 0 ∧ size l.length > l.linearTolerance then
      drawArrow l g (l.length - size l.length - l.linearTolerance) (size l.length) h else .ok []) = .ok fs ∧
      (∀ f ∈ fs, Flat h f) ∧ (if l.linearTolerance < size l.length then
        covered fs = arrow (l.length - l.linearTolerance - size l.length) (size l.length) else fs = []) := by
    by_cases hn : l.linearTolerance < size l.length
    · have := hsize l.length
      have hlen : l.length - l.linearTolerance - size l.length > 0 := by linarith
      have e : l.length - size l.length - l.linearTolerance = l.length - l.linearTolerance - size l.length := by ring
      obtain ⟨fs, a, b, c⟩ := drawArrow_ok l h hg (offset := l.length - l.linearTolerance - size l.length)
        (size := size l.length) (by linarith) (by linarith) (by linarith)
      rw [mul_comm, mul_comm (-_)] at c
      exact ⟨fs, by rw [if_pos ⟨hlen, hn⟩, e, a], b, by rw [if_pos hn]; exact c⟩
    · exact ⟨[], by rw [if_neg fun h => hn h.2], by simp, by rw [if_neg hn]⟩
  obtain ⟨start, a, b, c⟩ := hstart
  obtain ⟨finish, d, e, f⟩ := hfinish
  refine ⟨start, finish, ?_, ?_, c, f⟩
  · unfold markLaneEnds
    simp only
    simp only [size] at a d
    rw [a, d]
    rfl
  · intro x hx
    rcases List.mem_append.1 hx with hx | hx
    · exact b x hx
    · exact e x hx

/-- C86.  Arrows are between the ends of the lane, and no point is in both arrows unless the tolerance is a fifth of
the length of the lane or more. -/
theorem mark_lane_ends_separate (l : Lane) (g h : ℚ) (hg : 0 < g) (ht : 0 ≤ l.linearTolerance) :
    ∃ start finish, markLaneEnds l g h = .ok (start ++ finish) ∧
      (∀ p ∈ covered (start ++ finish), l.linearTolerance ≤ p.1 ∧ p.1 ≤ l.length - l.linearTolerance) ∧
      (l.linearTolerance < l.length / 5 → covered start ∩ covered finish = ∅) := by
  obtain ⟨start, finish, a, -, b, c⟩ := mark_lane_ends_faces l g h hg ht
  simp only at b c
  have hs : ∀ p ∈ covered start, l.linearTolerance ≤ p.1 ∧ p.1 ≤ l.linearTolerance + 3 / 10 * l.length ∧
      l.linearTolerance < 3 / 10 * l.length := by
    intro p hp
    split at b
    · next h =>
      rw [b] at hp
      obtain ⟨t, t0, t1, e, -⟩ := hp
      have m := min_le_left (3 / 10 * l.length) ((l.laneBounds 0).max - (l.laneBounds 0).min)
      have p0 := h
      have := mul_nonneg t0 (ht.trans h.le)
      have := mul_le_mul_of_nonneg_right t1 (ht.trans h.le)
      exact ⟨by linarith, by linarith, by linarith⟩
    · rw [b, covered_nil] at hp; exact hp.elim
  have hf : ∀ p ∈ covered finish, 7 / 10 * l.length - l.linearTolerance ≤ p.1 ∧ p.1 ≤ l.length - l.linearTolerance ∧
      l.linearTolerance < 3 / 10 * l.length := by
    intro p hp
    split at c
    · next h =>
      rw [c] at hp
      obtain ⟨t, t0, t1, e, -⟩ := hp
      have m := min_le_left (3 / 10 * l.length) ((l.laneBounds l.length).max - (l.laneBounds l.length).min)
      have := mul_nonneg t0 (ht.trans h.le)
      have := mul_le_mul_of_nonneg_right t1 (ht.trans h.le)
      exact ⟨by linarith, by linarith, by linarith⟩
    · rw [c, covered_nil] at hp; exact hp.elim
  refine ⟨start, finish, a, ?_, ?_⟩
  · intro p hp
    rw [covered_append] at hp
    rcases hp with hp | hp
    · obtain ⟨h1, h2, h3⟩ := hs p hp
      exact ⟨h1, by linarith⟩
    · obtain ⟨h1, h2, h3⟩ := hf p hp
      exact ⟨by linarith, h2⟩
  · intro h
    ext p
    simp only [Set.mem_inter_iff, Set.mem_empty_iff_false, iff_false]
    rintro ⟨h1, h2⟩
    have := (hs p h1).2.1
    have := (hf p h2).1
    linarith

/-- The example lane gets two arrows. -/
example : ((markLaneEnds meshLane 3 (1 / 10)).toOption.map List.length) = some 4 := by decide +kernel

/-! ### C87: the size of the grid -/

/-- C87.  The size of the grid is the smallest of the largest size allowed and the widths at both ends and the length
of the lane, each divided by the resolution, but not less than the tolerance. -/
theorem pick_grid_unit (l : Lane) (maxSize resolution tol : ℚ) (hr : 0 < resolution) :
    let width s := (l.laneBounds s).max - (l.laneBounds s).min
    pickGridUnit l maxSize resolution tol =
      max tol (min maxSize (min (max tol l.length) (min (max tol (width 0)) (max tol (width l.length))) / resolution)) := by
  intro width
  have e : ∀ a b c : ℚ, min a (min b c) / resolution = min (a / resolution) (min (b / resolution) (c / resolution)) := by
    intro a b c
    rw [min_div_div_right hr.le, min_div_div_right hr.le]
  rw [e]
  simp only [pickGridUnit, minQuotient, hr.ne', if_false]
  change max (min (min (min maxSize (max (width 0) tol / resolution)) (max (width l.length) tol / resolution))
    (max l.length tol / resolution)) tol = _
  rw [max_comm _ tol, max_comm _ tol, max_comm _ tol, max_comm _ tol, min_assoc, min_assoc]
  congr 2
  rw [← min_assoc, min_comm]

/-- C87.  The size of the grid is at least the tolerance, and at most the largest size allowed unless that is less than
the tolerance; a positive tolerance makes it positive. -/
theorem pick_grid_unit_range (l : Lane) (maxSize resolution tol : ℚ) :
    tol ≤ pickGridUnit l maxSize resolution tol ∧ pickGridUnit l maxSize resolution tol ≤ max maxSize tol ∧
    (0 < tol → 0 < pickGridUnit l maxSize resolution tol) := by
  have key : ∀ m x : ℚ, minQuotient m x resolution ≤ m := by
    intro m x
    unfold minQuotient
    split
    · exact le_rfl
    · exact min_le_left _ _
  have h : tol ≤ pickGridUnit l maxSize resolution tol := le_max_right _ _
  refine ⟨h, max_le_max_right _ ?_, fun ht => ht.trans_le h⟩
  exact (key _ _).trans ((key _ _).trans (key _ _))

/-- The example lane. -/
example : pickGridUnit meshLane 1 5 (1 / 100) = 4 / 5 := by decide +kernel

/-! ### Pushing the faces -/

/-- C83, C84, C85, C86.  The faces of a lane are added to a mesh with the inertial positions of their vertices and with
the normal of the face turned by the orientation of the lane at each vertex. -/
theorem lane_faces_pushed (l : Lane) (fs : List SrhFace) (m : Mesh.GeoMesh Pos Pos) (gs : List (List (Pos × Pos)))
    (h : Mesh.Spec.Built m gs) :
    ∃ m', pushFaces l m fs = .ok m' ∧ Mesh.Spec.Built m' (gs ++ fs.map fun f => f.vertices.map fun v =>
      (l.toInertial v, fun i => l.orientation v i 0 * f.normal.s + l.orientation v i 1 * f.normal.r +
        l.orientation v i 2 * f.normal.h)) :=
  pushFaces_ok l fs h

end Maliput.Props
