import Mathlib.Data.List.Perm.Subperm
import Verif.Lemmas.Monad
import Verif.Spec.SegmentAnalysis

set_option autoImplicit false

/-! Lemmas about confluent segments. -/
namespace Maliput.SegmentAnalysis

open Spec
open Maliput.Topo (LaneEnd Which)
open Maliput.RouteGraph (Stop lift)

/-- What marking the elements of a list does. -/
def Marked (xs : Nat → Prop) (s s' : List Nat × List Nat) : Prop :=
  ∃ new, s'.1 = s.1 ++ new ∧ s'.2 = s.2 ++ new ∧ new.Nodup ∧ (∀ x ∈ new, x ∉ s.2 ∧ xs x) ∧ ∀ x, xs x → x ∈ s'.2

theorem Marked.refl (s : List Nat × List Nat) : Marked (fun _ => False) s s := ⟨[], by simp⟩

theorem Marked.trans {P Q : Nat → Prop} {s s' s'' : List Nat × List Nat} (h : Marked P s s') (h' : Marked Q s' s'') :
    Marked (fun x => P x ∨ Q x) s s'' := by
  obtain ⟨n, h1, h2, h3, h4, h5⟩ := h
  obtain ⟨n', h1', h2', h3', h4', h5'⟩ := h'
  refine ⟨n ++ n', by rw [h1', h1, List.append_assoc], by rw [h2', h2, List.append_assoc], ?_, ?_, ?_⟩
  · rw [List.nodup_append]
    refine ⟨h3, h3', fun a ha b hb he => ?_⟩
    subst he
    exact (h4' a hb).1 (by rw [h2]; exact List.mem_append_right _ ha)
  · intro x hx
    rcases List.mem_append.1 hx with hx | hx
    · exact ⟨(h4 x hx).1, .inl (h4 x hx).2⟩
    · refine ⟨fun hm => (h4' x hx).1 (by rw [h2]; exact List.mem_append_left _ hm), .inr (h4' x hx).2⟩
  · rintro x (hx | hx)
    · rw [h2']; exact List.mem_append_left _ (h5 x hx)
    · exact h5' x hx

theorem Marked.congr {P Q : Nat → Prop} {s s' : List Nat × List Nat} (h : Marked P s s') (he : ∀ x, P x ↔ Q x) :
    Marked Q s s' := by
  have : P = Q := funext fun x => propext (he x)
  rwa [← this]

theorem mark_spec (net : Net) (l : List LaneEnd) : ∀ s,
    Marked (fun x => ∃ le ∈ l, net.segment le.lane = some x) s (mark net l s) := by
  induction l with
  | nil => intro s; exact (Marked.refl s).congr (by simp)
  | cons le l ih =>
    intro s
    rw [mark]
    generalize hx : net.segment le.lane = o
    rcases o with _ | x
    · exact (ih s).congr (by simp [hx])
    · by_cases hm : x ∈ s.2
      · simp only [if_pos hm]
        have h1 : Marked (fun y => y = x) s s := ⟨[], by simp [hm]⟩
        exact (h1.trans (ih s)).congr (by simp [hx, eq_comm])
      · simp only [if_neg hm]
        have h1 : Marked (fun y => y = x) s (s.1 ++ [x], s.2 ++ [x]) := ⟨[x], by simp [hm]⟩
        exact (h1.trans (ih _)).congr (by simp [hx, eq_comm])

theorem markEnds_spec (net : Net) (lane : Nat) (ws : List Which) : ∀ s,
    (∀ w ∈ ws, ∃ c, net.confluent ⟨lane, w⟩ = .ok c) →
    ∃ s', markEnds net lane ws s = .ok s' ∧
      Marked (fun x => ∃ w ∈ ws, ∃ c le, net.confluent ⟨lane, w⟩ = .ok (some c) ∧ le ∈ c ∧ net.segment le.lane = some x)
        s s' := by
  induction ws with
  | nil => intro s _; exact ⟨s, rfl, (Marked.refl s).congr (by simp)⟩
  | cons w ws ih =>
    intro s h
    obtain ⟨c, hc⟩ := h w List.mem_cons_self
    obtain ⟨s', h1, h2⟩ := ih (mark net (c.getD []) s) fun w hw => h w (List.mem_cons_of_mem _ hw)
    refine ⟨s', by rw [markEnds, hc]; exact h1, ((mark_spec net (c.getD []) s).trans h2).congr ?_⟩
    intro x
    rw [List.exists_mem_cons_iff]
    rcases c with _ | c
    · simp [hc]
    · simp only [hc, Option.getD_some, Except.ok.injEq, Option.some.injEq, exists_and_left, exists_eq_left']

theorem markLanes_spec (net : Net) (ls : List (Option Nat)) : ∀ s,
    (∀ lane, some lane ∈ ls → ∀ w, ∃ c, net.confluent ⟨lane, w⟩ = .ok c) →
    ∃ s', markLanes net ls s = .ok s' ∧
      Marked (fun x => ∃ lane w c le, some lane ∈ ls ∧ net.confluent ⟨lane, w⟩ = .ok (some c) ∧ le ∈ c ∧
        net.segment le.lane = some x) s s' := by
  induction ls with
  | nil => intro s _; exact ⟨s, rfl, (Marked.refl s).congr (by simp)⟩
  | cons o ls ih =>
    intro s h
    rcases o with _ | lane
    · obtain ⟨s', h1, h2⟩ := ih s fun l hl => h l (List.mem_cons_of_mem _ hl)
      exact ⟨s', by rw [markLanes]; exact h1, h2.congr (by simp)⟩
    · obtain ⟨s', h1, h2⟩ := markEnds_spec net lane [.start, .finish] s fun w _ => h lane List.mem_cons_self w
      obtain ⟨s'', h3, h4⟩ := ih s' fun l hl => h l (List.mem_cons_of_mem _ hl)
      refine ⟨s'', by rw [markLanes, h1]; exact h3, (h2.trans h4).congr ?_⟩
      intro x
      constructor
      · rintro (⟨w, -, c, le, h⟩ | ⟨l, w, c, le, hl, h⟩)
        · exact ⟨lane, w, c, le, List.mem_cons_self, h⟩
        · exact ⟨l, w, c, le, List.mem_cons_of_mem _ hl, h⟩
      · rintro ⟨l, w, c, le, hl, h⟩
        rcases List.mem_cons.1 hl with hl | hl
        · cases hl
          exact .inl ⟨w, by cases w <;> simp, c, le, h⟩
        · exact .inr ⟨l, w, c, le, hl, h⟩

/-- The segments can be visited. -/
structure Sound (net : Net) : Prop where
  defined : ∀ x lane w, some lane ∈ net.lanes x → ∃ c, net.confluent ⟨lane, w⟩ = .ok c
  listed : ∀ lane x, net.segment lane = some x → x ∈ net.segments

theorem work_spec {net : Net} (hs : Sound net) {seed : Nat} : ∀ (n : Nat) (queue visited : List Nat),
    (∀ x ∈ queue, x = seed ∨ x ∈ visited) → visited.Nodup → (∀ x ∈ visited, Relation.TransGen (Confluent net) seed x) →
    (∀ x, x = seed ∨ x ∈ visited → x ∈ queue ∨ ∀ y, Confluent net x y → y ∈ visited) →
    net.segments.length + queue.length ≤ n + visited.length →
    ∃ visited', work net n queue visited = .ok visited' ∧ visited'.Nodup ∧
      ∀ x, x ∈ visited' ↔ Relation.TransGen (Confluent net) seed x := by
  intro n
  induction n with
  | zero =>
    intro queue visited hq hn hv hc hl
    have hle : visited.length ≤ net.segments.length := by
      refine (hn.subperm fun x hx => ?_).length_le
      obtain ⟨y, -, lane, w, c, le, -, -, -, h⟩ := Relation.TransGen.tail'_iff.1 (hv x hx)
      exact hs.listed _ _ h
    rcases queue with _ | ⟨x, queue⟩
    · refine ⟨visited, by rw [work], hn, fun x => ⟨hv x, fun h => ?_⟩⟩
      induction h with
      | single h => exact (hc seed (.inl rfl)).resolve_left (by simp) _ h
      | tail _ h ih => exact (hc _ (.inr ih)).resolve_left (by simp) _ h
    · simp at hl; omega
  | succ n ih =>
    intro queue visited hq hn hv hc hl
    rcases queue with _ | ⟨x, queue⟩
    · refine ⟨visited, by rw [work], hn, fun x => ⟨hv x, fun h => ?_⟩⟩
      induction h with
      | single h => exact (hc seed (.inl rfl)).resolve_left (by simp) _ h
      | tail _ h ih => exact (hc _ (.inr ih)).resolve_left (by simp) _ h
    · obtain ⟨s', h1, new, h2, h3, h4, h5, h6⟩ := markLanes_spec net (net.lanes x) (queue, visited)
        fun lane hl w => hs.defined x lane w hl
      simp only at h2 h3
      rw [work, h1]
      simp only [lift, bind, Except.bind]
      have hx : x = seed ∨ x ∈ visited := hq x List.mem_cons_self
      have hsub : ∀ y ∈ visited, y ∈ s'.2 := fun y hy => by rw [h3]; exact List.mem_append_left _ hy
      refine ih s'.1 s'.2 ?_ ?_ ?_ ?_ ?_
      · intro y hy
        rw [h2, List.mem_append] at hy
        rcases hy with hy | hy
        · exact (hq y (List.mem_cons_of_mem _ hy)).imp id (hsub y)
        · right; rw [h3]; exact List.mem_append_right _ hy
      · rw [h3, List.nodup_append]
        exact ⟨hn, h4, fun a ha b hb he => (h5 b hb).1 (he ▸ ha)⟩
      · intro y hy
        rw [h3, List.mem_append] at hy
        rcases hy with hy | hy
        · exact hv y hy
        · have hxy : Confluent net x y := (h5 y hy).2
          rcases hx with rfl | hx
          · exact .single hxy
          · exact (hv x hx).tail hxy
      · intro y hy
        by_cases hyx : y = x
        · right
          intro z hz
          subst hyx
          exact h6 z hz
        · by_cases hyn : y ∈ new
          · left; rw [h2]; exact List.mem_append_right _ hyn
          · have : y = seed ∨ y ∈ visited := by
              refine hy.imp id fun h => ?_
              rw [h3, List.mem_append] at h
              exact h.resolve_right hyn
            rcases hc y this with h | h
            · left
              rw [h2]
              exact List.mem_append_left _ ((List.mem_cons.1 h).resolve_left hyx)
            · right; exact fun z hz => hsub z (h z hz)
      · rw [h2, h3, List.length_append, List.length_append]
        simp only [List.length_cons] at hl
        omega

theorem findConfluent_spec {net : Net} (hs : Sound net) (seed : Nat) :
    ∃ c, findConfluentSegments net seed = .ok c ∧ c.Nodup ∧ ∀ x, x ∈ c ↔ Relation.TransGen (Confluent net) seed x := by
  unfold findConfluentSegments
  refine work_spec hs _ _ _ ?_ ?_ ?_ ?_ ?_
  · simp
  · simp
  · simp
  · rintro x (rfl | h)
    · simp
    · simp at h
  · simp

/-- The components, if the relation is symmetric. -/
theorem components_spec {net : Net} (hs : Sound net) (hsymm : ∀ x y, Confluent net x y → Confluent net y x) :
    ∀ (l visited : List Nat), (∀ x ∈ visited, ∀ y, Confluent net x y → y ∈ visited) →
    ∃ cs, components net l visited = .ok cs ∧
      (∀ c ∈ cs, ∃ seed ∈ l, ∀ x, x ∈ c ↔ Relation.TransGen (Confluent net) seed x) ∧
      (∀ c ∈ cs, c.Nodup ∧ ∀ x ∈ c, x ∉ visited) ∧ cs.Pairwise List.Disjoint ∧
      ∀ x ∈ l, (∃ y, Confluent net x y) → x ∈ visited ∨ ∃ c ∈ cs, x ∈ c := by
  intro l
  induction l with
  | nil => intro v _; exact ⟨[], rfl, by simp, by simp, by simp, by simp⟩
  | cons a l ih =>
    intro v hv
    rw [components]
    by_cases ha : a ∈ v
    · rw [if_pos ha]
      obtain ⟨cs, h1, h2, h3, h4, h5⟩ := ih v hv
      refine ⟨cs, h1, ?_, h3, h4, ?_⟩
      · intro c hc
        obtain ⟨seed, hs, h⟩ := h2 c hc
        exact ⟨seed, List.mem_cons_of_mem _ hs, h⟩
      · intro x hx hy
        rcases List.mem_cons.1 hx with rfl | hx
        · exact .inl ha
        · exact h5 x hx hy
    · rw [if_neg ha]
      obtain ⟨c, hc, hn, hcm⟩ := findConfluent_spec hs a
      have hclosed : ∀ x ∈ v ++ c, ∀ y, Confluent net x y → y ∈ v ++ c := by
        intro x hx y hy
        rcases List.mem_append.1 hx with hx | hx
        · exact List.mem_append_left _ (hv x hx y hy)
        · exact List.mem_append_right _ ((hcm y).2 (((hcm x).1 hx).tail hy))
      obtain ⟨cs, h1, h2, h3, h4, h5⟩ := ih (v ++ c) hclosed
      have hback : ∀ x, Relation.TransGen (Confluent net) a x → x ∈ v → a ∈ v := by
        intro x h
        induction h with
        | single h => intro hx; exact hv _ hx _ (hsymm _ _ h)
        | tail _ h ih => intro hx; exact ih (hv _ hx _ (hsymm _ _ h))
      refine ⟨c :: cs, by rw [hc]; simp only [bind, Except.bind, h1]; rfl, ?_, ?_, ?_, ?_⟩
      · intro c' hc'
        rcases List.mem_cons.1 hc' with rfl | hc'
        · exact ⟨a, List.mem_cons_self, hcm⟩
        · obtain ⟨seed, hs, h⟩ := h2 c' hc'
          exact ⟨seed, List.mem_cons_of_mem _ hs, h⟩
      · intro c' hc'
        rcases List.mem_cons.1 hc' with rfl | hc'
        · exact ⟨hn, fun x hx hxv => ha (hback x ((hcm x).1 hx) hxv)⟩
        · exact ⟨(h3 c' hc').1, fun x hx hxv => (h3 c' hc').2 x hx (List.mem_append_left _ hxv)⟩
      · rw [List.pairwise_cons]
        exact ⟨fun c' hc' x hx hx' => (h3 c' hc').2 x hx' (List.mem_append_right _ hx), h4⟩
      · intro x hx hy
        rcases List.mem_cons.1 hx with rfl | hx
        · obtain ⟨y, hy⟩ := hy
          refine .inr ⟨c, List.mem_cons_self, (hcm x).2 ?_⟩
          exact (Relation.TransGen.single hy).tail (hsymm _ _ hy)
        · rcases h5 x hx hy with h | ⟨c', hc', h⟩
          · rcases List.mem_append.1 h with h | h
            · exact .inl h
            · exact .inr ⟨c, List.mem_cons_self, h⟩
          · exact .inr ⟨c', List.mem_cons_of_mem _ hc', h⟩

end Maliput.SegmentAnalysis
