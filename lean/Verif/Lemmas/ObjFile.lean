import Verif.Lemmas.BuildMeshes
import Verif.Lemmas.Decimals
import Verif.Lemmas.Monad

set_option autoImplicit false

/-! Lemmas about the files. -/
namespace Maliput.GenerateObj

open Maliput.GenerateObj.Spec
open Maliput.RoadMesh (Lane Pos)
open Maliput.RouteGraph (Stop lift)
open Maliput.Mesh.Spec (Built read vLines vnLines fLines oneBased)

theorem enough_iff {t : ℚ} (p : ℕ) : 3 * (1 / 2 / 10 ^ p) ^ 2 ≤ (t / 10) ^ 2 ↔ 75 ≤ (10 ^ p * t) ^ 2 := by
  have hp : (0 : ℚ) < 10 ^ p := by positivity
  have e : 3 * (1 / 2 / (10 : ℚ) ^ p) ^ 2 = 75 / 100 / (10 ^ p) ^ 2 := by field_simp; norm_num
  rw [e, div_le_iff₀ (by positivity)]
  constructor
  · intro h; nlinarith
  · intro h; nlinarith

theorem precision_ok {t : ℚ} (ht : 0 < t) : ∃ p, precision t = .ok p ∧ Enough t p := by
  refine ⟨Nat.find (exists_precision ht), by simp [precision, ht], ?_, ?_⟩
  · exact (enough_iff _).2 (Nat.find_spec (exists_precision ht))
  · intro q hq
    exact lt_of_not_ge fun h => Nat.find_min (exists_precision ht) hq ((enough_iff q).1 h)

theorem text3_ok {t : ℚ} {p : ℕ} (hp : Enough t p) (x : Pos) : ∃ text, text3 x p = .ok text ∧ Shows t p text x := by
  obtain ⟨s0, y0, a0, b0, c0⟩ := toStr_near (x 0) p
  obtain ⟨s1, y1, a1, b1, c1⟩ := toStr_near (x 1) p
  obtain ⟨s2, y2, a2, b2, c2⟩ := toStr_near (x 2) p
  refine ⟨⟨s0, s1, s2⟩, ?_, ![y0, y1, y2], b0, b1, b2, ?_, ?_⟩
  · simp only [text3, a0, a1, a2, bind, Except.bind, pure, Except.pure]
  · intro i
    rcases (by omega : i = 0 ∨ i = 1 ∨ i = 2) with rfl | rfl | rfl
    · exact c0
    · exact c1
    · exact c2
  · have sq : ∀ {y z : ℚ}, |y - z| ≤ 1 / 2 / 10 ^ p → (y - z) ^ 2 ≤ (1 / 2 / 10 ^ p) ^ 2 := by
      intro y z h
      rw [← sq_abs]
      exact pow_le_pow_left₀ (abs_nonneg _) h 2
    have h0 := sq c0
    have h1 := sq c1
    have h2 := sq c2
    have := hp.1
    show (y0 - x 0) ^ 2 + (y1 - x 1) ^ 2 + (y2 - x 2) ^ 2 ≤ _
    linarith

/-- The texts of vertices and normals as functions. -/
theorem exists_texts {t : ℚ} {p : ℕ} (hp : Enough t p) (origin : Pos) :
    ∃ (tv tn : Pos → Text3), (∀ x, Shows t p (tv x) fun i => x i - origin i) ∧ (∀ x, Shows t p (tn x) x) ∧
      ∀ l, formatLine p origin l = .ok (match l with
        | .v x => .v (tv x)
        | .vn n => .vn (tn n)
        | .f ids => .f ids
        | .other s => .other s) := by
  choose tn h1 h2 using fun x => text3_ok hp x
  refine ⟨fun x => tn fun i => x i - origin i, tn, fun x => h2 _, h2, ?_⟩
  intro l
  cases l with
  | v x => simp only [formatLine, h1, bind, Except.bind, pure, Except.pure]
  | vn n => simp only [formatLine, h1, bind, Except.bind, pure, Except.pure]
  | f ids => rfl
  | other s => rfl

/-- Changing the coordinates of lines. -/
def mapLine {V N V' N' : Type} (tv : V → V') (tn : N → N') : Mesh.Line V N → Mesh.Line V' N'
  | .v x => .v (tv x)
  | .vn n => .vn (tn n)
  | .f ids => .f ids
  | .other s => .other s

theorem read_mapLine {V N V' N' : Type} (tv : V → V') (tn : N → N') (lines : List (Mesh.Line V N)) :
    read (lines.map (mapLine tv tn)) = (read lines).map (·.map fun vn => (vn.1.map tv, vn.2.map tn)) := by
  have hv : ∀ lines : List (Mesh.Line V N), vLines (lines.map (mapLine tv tn)) = (vLines lines).map tv := by
    intro lines
    induction lines with
    | nil => rfl
    | cons l ls ih => cases l <;> simp_all [vLines, mapLine]
  have hn : ∀ lines : List (Mesh.Line V N), vnLines (lines.map (mapLine tv tn)) = (vnLines lines).map tn := by
    intro lines
    induction lines with
    | nil => rfl
    | cons l ls ih => cases l <;> simp_all [vnLines, mapLine]
  have hf : ∀ lines : List (Mesh.Line V N), fLines (lines.map (mapLine tv tn)) = fLines lines := by
    intro lines
    induction lines with
    | nil => rfl
    | cons l ls ih => cases l <;> simp_all [fLines, mapLine]
  have hone : ∀ {α β : Type} (g : α → β) (l : List α) (i : ℕ), oneBased (l.map g) i = (oneBased l i).map g := by
    intro α β g l i
    unfold oneBased
    split
    · rfl
    · simp
  unfold Mesh.Spec.read
  rw [hv, hn, hf, List.map_map]
  refine List.map_congr_left fun ids _ => ?_
  simp only [Function.comp, List.map_map]
  refine List.map_congr_left fun ij _ => ?_
  simp only [Function.comp, hone]

theorem mapM_pure {α β : Type} {f : α → Except Err β} {g : α → β} (h : ∀ a, f a = .ok (g a)) (l : List α) :
    l.mapM f = .ok (l.map g) := by
  refine mapM_of_forall₂ ?_
  rw [List.forall₂_map_right_iff]
  exact List.forall₂_same.2 fun a _ => h a

/-- Other lines than those of vertices, normals and faces. -/
theorem emitAll_other {V N : Type} (ms : List (Mesh.GeoMesh V N × String)) : ∀ (vo no : ℕ) (s : String),
    Mesh.Line.other s ∈ Mesh.emitAll vo no ms →
    s ∈ ["# Vertices", "# Normals", "", "# Faces"] ∨ ∃ m ∈ ms, m.1.faces ≠ [] ∧ s = "usemtl " ++ m.2 := by
  induction ms with
  | nil => intro vo no s h; simp [Mesh.emitAll] at h
  | cons mm ms ih =>
    intro vo no s h
    obtain ⟨m, material⟩ := mm
    simp only [Mesh.emitAll, List.mem_append] at h
    rcases h with h | h
    · unfold Mesh.GeoMesh.emitObj at h
      split at h
      · simp at h
      · next hne =>
        simp only [List.mem_append, List.mem_cons, List.mem_map, Mesh.Line.other.injEq, List.not_mem_nil, or_false,
          reduceCtorEq, and_false, exists_false] at h
        rcases h with ((rfl | rfl) | rfl | rfl) | h
        · simp
        · simp
        · simp
        · simp
        · split at h
          · simp at h
          · simp only [List.mem_cons, List.not_mem_nil, or_false, Mesh.Line.other.injEq] at h
            exact .inr ⟨(m, material), by simp, by simpa using hne, h⟩
    · rcases ih _ _ s h with h | ⟨m', h1, h2, h3⟩
      · exact .inl h
      · exact .inr ⟨m', by simp [h1], h2, h3⟩

theorem row_ok (v : ℚ × ℚ × ℚ) (a b c : ℕ) (ha : |v.1| * 10 ^ 6 = a) (hb : |v.2.1| * 10 ^ 6 = b) (hc : |v.2.2| * 10 ^ 6 = c) :
    ∃ text, row v = .ok text ∧ Exact text v := by
  obtain ⟨s0, a0, b0⟩ := toStr_exact v.1 6 a ha
  obtain ⟨s1, a1, b1⟩ := toStr_exact v.2.1 6 b hb
  obtain ⟨s2, a2, b2⟩ := toStr_exact v.2.2 6 c hc
  refine ⟨⟨s0, s1, s2⟩, ?_, b0, b1, b2⟩
  have e : ((6 : ℕ) : ℤ) = 6 := rfl
  rw [e] at a0 a1 a2
  simp only [row, a0, a1, a2, bind, Except.bind, pure, Except.pure]

/-- A number with at most six digits after the decimal point, and not negative. -/
def Short (x : ℚ) : Prop := ∃ k : ℕ, |x| * 10 ^ 6 = k

theorem materials_short : ∀ m ∈ materials, (Short m.ambient.1 ∧ Short m.ambient.2.1 ∧ Short m.ambient.2.2) ∧
    (Short m.diffuse.1 ∧ Short m.diffuse.2.1 ∧ Short m.diffuse.2.2) ∧
    (Short m.specular.1 ∧ Short m.specular.2.1 ∧ Short m.specular.2.2) ∧ Short m.shininess := by
  have s0 : Short 0 := ⟨0, by norm_num⟩
  have s1 : Short (1 / 10) := ⟨100000, by rw [abs_of_pos] <;> norm_num⟩
  have s2 : Short (2 / 10) := ⟨200000, by rw [abs_of_pos] <;> norm_num⟩
  have s3 : Short (3 / 10) := ⟨300000, by rw [abs_of_pos] <;> norm_num⟩
  have s5 : Short (1 / 2) := ⟨500000, by rw [abs_of_pos] <;> norm_num⟩
  have s8 : Short (8 / 10) := ⟨800000, by rw [abs_of_pos] <;> norm_num⟩
  have s9 : Short (9 / 10) := ⟨900000, by rw [abs_of_pos] <;> norm_num⟩
  have s10 : Short 1 := ⟨1000000, by rw [abs_of_pos] <;> norm_num⟩
  have s101 : Short (101 / 10) := ⟨10100000, by rw [abs_of_pos] <;> norm_num⟩
  intro m hm
  simp only [materials, List.mem_cons, List.not_mem_nil, or_false] at hm
  rcases hm with rfl | rfl | rfl | rfl | rfl | rfl | rfl | rfl | rfl <;>
    exact ⟨⟨by assumption, by assumption, by assumption⟩, ⟨by assumption, by assumption, by assumption⟩,
      ⟨by assumption, by assumption, by assumption⟩, by assumption⟩

theorem formatMaterial_ok {m : Material} (hm : m ∈ materials) (p : ℕ) :
    ∃ text, formatMaterial m p = .ok text ∧ Describes p text m := by
  obtain ⟨⟨⟨a1, h1⟩, ⟨a2, h2⟩, ⟨a3, h3⟩⟩, ⟨⟨a4, h4⟩, ⟨a5, h5⟩, ⟨a6, h6⟩⟩, ⟨⟨a7, h7⟩, ⟨a8, h8⟩, ⟨a9, h9⟩⟩, ⟨b, hb⟩⟩ :=
    materials_short m hm
  obtain ⟨t1, c1, d1⟩ := row_ok m.ambient _ _ _ h1 h2 h3
  obtain ⟨t2, c2, d2⟩ := row_ok m.diffuse _ _ _ h4 h5 h6
  obtain ⟨t3, c3, d3⟩ := row_ok m.specular _ _ _ h7 h8 h9
  obtain ⟨t4, c4, d4⟩ := toStr_exact m.shininess 6 b hb
  obtain ⟨t5, y, c5, d5, e5⟩ := toStr_near (1 - m.transparency) p
  have e : ((6 : ℕ) : ℤ) = 6 := rfl
  rw [e] at c4
  refine ⟨⟨m.name, t1, t2, t3, t4, t5⟩, ?_, rfl, d1, d2, d3, d4, ⟨y, d5, e5⟩⟩
  simp only [formatMaterial, c1, c2, c3, c4, c5, bind, Except.bind, pure, Except.pure]

end Maliput.GenerateObj
