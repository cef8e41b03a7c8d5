import Verif.Lemmas.BranchPoint

set_option autoImplicit false

/-! Properties C12 - C14: branch points. -/
namespace Maliput.Props
open Maliput Maliput.Topo

/-- C12: after every history of successful calls the topology is consistent (see `Consistent`). -/
theorem branchPoint_consistent {t : Topology} (h : Built t) : Consistent t := by
  obtain ⟨hi, ha⟩ := built_inv h
  have hside : ∀ b le s, le ∈ (t.bps b).side s → t.attached le = some b := fun b le s hm =>
    ha le b s ((hi.bp b).mem le s |>.mp hm)
  refine ⟨?_, ?_, ?_, ?_, ?_, ?_, ?_⟩
  · intro b le
    constructor
    · rintro (hm | hm)
      · exact hside b le .a hm
      · exact hside b le .b hm
    · intro hb
      obtain ⟨s, hs⟩ := hi.att le b hb
      have := ((hi.bp b).mem le s).mpr hs
      cases s
      · exact Or.inl this
      · exact Or.inr this
  · rintro b le ⟨h1, h2⟩
    have e1 := ((hi.bp b).mem le .a).mp h1
    have e2 := ((hi.bp b).mem le .b).mp h2
    rw [e1] at e2; cases e2
  · intro b; exact ⟨(hi.bp b).nodup .a, (hi.bp b).nodup .b⟩
  · intro le b hb
    obtain ⟨s, -, h1, h2⟩ := getConfluent_eq hi hb
    cases s
    · exact Or.inl ⟨h1, h2⟩
    · exact Or.inr ⟨h1, h2⟩
  · intro le c hc
    obtain ⟨b, hb⟩ := att_of_getConfluent hc
    obtain ⟨s, hs, h1, -⟩ := getConfluent_eq hi hb
    rw [h1] at hc; cases hc
    exact ((hi.bp b).mem le s).mpr hs
  · intro x y c hc hy
    obtain ⟨b, hb⟩ := att_of_getConfluent hc
    obtain ⟨s, hs, h1, h2⟩ := getConfluent_eq hi hb
    rw [h1] at hc; cases hc
    have hyb := hside b y s hy
    obtain ⟨s', hs', h1', h2'⟩ := getConfluent_eq hi hyb
    have := ((hi.bp b).mem y s).mp hy
    rw [this] at hs'; cases hs'
    exact ⟨h1', by rw [h2', h2]⟩
  · intro x y c hc hy
    obtain ⟨b, hb⟩ := att_of_getOngoing hc
    obtain ⟨s, hs, h1, h2⟩ := getConfluent_eq hi hb
    rw [h2] at hc; cases hc
    have hyb := hside b y s.other hy
    obtain ⟨s', hs', h1', h2'⟩ := getConfluent_eq hi hyb
    have := ((hi.bp b).mem y s.other).mp hy
    rw [this] at hs'; cases hs'
    refine ⟨_, h2', ?_⟩
    rw [Side.other_other]
    exact ((hi.bp b).mem x s).mpr hs

/-- A Y-shaped junction at branch point 0: lane 1 arrives, lanes 2 and 3 leave, the default is 3. -/
def demoTopologyOps : List Op :=
  [.addBranch 0 .a (some 1) .finish, .addBranch 0 .b (some 2) .start, .addBranch 0 .b (some 3) .finish,
   .setDefault 0 ⟨1, .finish⟩ ⟨2, .start⟩, .addBranch 1 .b (some 2) .finish,
   .setDefault 0 ⟨1, .finish⟩ ⟨3, .finish⟩]

/-- The topology of the demo. -/
def demoTopology : Topology := run .init demoTopologyOps

/-- The demo is built by successful calls. -/
example : Built demoTopology ∧ getConfluent demoTopology ⟨3, .finish⟩ = .ok [⟨2, .start⟩, ⟨3, .finish⟩] ∧
    getOngoing demoTopology ⟨3, .finish⟩ = .ok [⟨1, .finish⟩] := by
  refine ⟨?_, by rfl, by rfl⟩
  exact built_run _ _ .init (by decide)

/-- C13: at any point of any history of calls, successful or not, the default branch of a lane end is
one of its ongoing branches, and it is the one given by the last successful `SetDefault` for this lane
end at its branch point. -/
theorem default_is_ongoing (ops : List Op) (le d : LaneEnd)
    (h : getDefault (run .init ops) le = .ok (some d)) :
    (∃ c, getOngoing (run .init ops) le = .ok c ∧ d ∈ c) ∧
    ∃ bp, getBranchPoint (run .init ops) le = some bp ∧ lastDefault bp le .init ops none = some d := by
  have hi := inv_run ops _ inv_init
  unfold getDefault at h
  cases ha : (run .init ops).attached le with
  | none => rw [ha] at h; cases h
  | some bp =>
    rw [ha] at h
    have hd : ((run .init ops).bps bp).defaults le = some d := by
      simpa using h
    refine ⟨?_, bp, ha, ?_⟩
    · obtain ⟨o, h1, h2⟩ := (hi.bp bp).deft le d hd
      refine ⟨_, by simp [getOngoing, ha, h1]; rfl, ?_⟩
      exact ((hi.bp bp).mem d o).mpr h2
    · rw [← hd, defaults_run le bp ops .init none rfl]

/-- C13, conversely: after the last successful `SetDefault` for a lane end at its branch point, that is
the default branch reported. -/
theorem default_is_last (ops : List Op) (le : LaneEnd) (bp : Nat)
    (ha : getBranchPoint (run .init ops) le = some bp) :
    getDefault (run .init ops) le = .ok (lastDefault bp le .init ops none) := by
  have ha' : (run .init ops).attached le = some bp := ha
  rw [← defaults_run le bp ops .init none rfl]
  simp [getDefault, ha']

example : getDefault demoTopology ⟨1, .finish⟩ = .ok (some ⟨3, .finish⟩) := by rfl

/-! ### C14 -/

/-- C14, what holds: a rejected `SetDefault`, and a rejected `AddABranch`/`AddBBranch` of a null lane or
of a lane end this branch point already has, change nothing. What is missing: a lane end that another
branch point has, see `rejected_addBranch_changes`. -/
theorem rejected_call_changes_nothing_partial (ops : List Op) (o : Op) (t' : Topology) (e : Err)
    (h : o.exec (run .init ops) = (t', .error e))
    (hother : ∀ bp side lane w, o = .addBranch bp side (some lane) w →
      ∀ b, getBranchPoint (run .init ops) ⟨lane, w⟩ = some b → b = bp) :
    t' = run .init ops := by
  have hi := inv_run ops _ inv_init
  generalize run .init ops = t at *
  cases o with
  | addBranch bp side lane w =>
    simp only [Op.exec] at h
    rcases addBranch_cases hi bp side lane w with ⟨_, e'⟩ | ⟨l, hl, ⟨_, e'⟩ | ⟨hc, hn, e'⟩ | ⟨hc, ⟨b, hb, hb'⟩, e'⟩⟩ <;>
      rw [e'] at h <;> simp only [Prod.mk.injEq, reduceCtorEq, and_false] at h
    · exact h.1.symm
    · exact h.1.symm
    · subst hl
      exact absurd (hother bp side l w rfl b hb') hb
  | setDefault bp le d =>
    simp only [Op.exec] at h
    rcases setDefault_cases t bp le d with e' | ⟨o, ho, hc, e'⟩ <;>
      rw [e'] at h <;> simp only [Prod.mk.injEq, reduceCtorEq, and_false] at h
    exact h.1.symm

/-- C14 as stated is false of the code: `AddABranch` of a lane end that already belongs to another
branch point throws, and still inserts the lane end, which then is on the sides of both branch points
although its own branch point is the first one. -/
theorem rejected_addBranch_changes :
    ∃ (ops : List Op) (o : Op) (t' : Topology) (le : LaneEnd), Built (run .init ops) ∧
      o.exec (run .init ops) = (t', .error .throws) ∧
      le ∉ ((run .init ops).bps 1).aSide ∧ le ∈ (t'.bps 1).aSide ∧ le ∈ (t'.bps 0).aSide ∧
      getBranchPoint t' le = some 0 := by
  refine ⟨[.addBranch 0 .a (some 7) .start], .addBranch 1 .a (some 7) .start, _, ⟨7, .start⟩, ?_, rfl, ?_, ?_, ?_, ?_⟩
  · exact built_run _ _ .init (by decide)
  · decide
  · decide
  · decide
  · decide

/-- The hypotheses of the partial theorem are met by a lane end added twice to one branch point, and by
a default that is not an ongoing branch. -/
example : (Op.exec (run .init demoTopologyOps) (.addBranch 0 .b (some 1) .finish)).2 = .error .throws ∧
    (Op.exec (run .init demoTopologyOps) (.setDefault 0 ⟨2, .start⟩ ⟨3, .finish⟩)).2 = .error .throws ∧
    getBranchPoint (run .init demoTopologyOps) ⟨1, .finish⟩ = some 0 := by
  refine ⟨by rfl, by rfl, by rfl⟩

end Maliput.Props
