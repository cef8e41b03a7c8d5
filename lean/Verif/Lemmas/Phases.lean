import Verif.Spec.Phases
import Verif.Lemmas.Rules
import Mathlib.Data.List.Induction

set_option autoImplicit false

/-! Phase rings, the book of phase rings and the phase provider. -/
namespace Maliput.Phases

open Maliput.Rules Maliput.Phases.Spec

theorem Spec.SameKeys.refl {κ α : Type} [DecidableEq κ] (a : Map κ α) : SameKeys a a := fun _ => Iff.rfl

theorem Spec.SameKeys.symm {κ α β : Type} [DecidableEq κ] {a : Map κ α} {b : Map κ β} (h : SameKeys a b) : SameKeys b a :=
  fun k => (h k).symm

theorem Spec.SameKeys.trans {κ α β γ : Type} [DecidableEq κ] {a : Map κ α} {b : Map κ β} {c : Map κ γ}
    (h : SameKeys a b) (h' : SameKeys b c) : SameKeys a c := fun k => (h k).trans (h' k)

theorem sameKeys_iff {κ α β : Type} [DecidableEq κ] (a : Map κ α) (b : Map κ β) :
    (a.size = b.size ∧ ∀ k ∈ a.keys, b.has k = true) ↔ SameKeys a b := by
  constructor
  · rintro ⟨h1, h2⟩ k
    have hsub : a.keys ⊆ b.keys := fun g hg => Map.mem_keys_has.2 (h2 g hg)
    have hperm : a.keys.Perm b.keys := by
      apply (List.subperm_of_subset a.nodup hsub).perm_of_length_le
      simp only [Map.keys, List.length_map]
      exact le_of_eq h1.symm
    rw [← Map.mem_keys, ← Map.mem_keys]
    exact hperm.mem_iff
  · intro h
    have hperm : a.keys.Perm b.keys := by
      refine (List.perm_ext_iff_of_nodup a.nodup b.nodup).2 ?_
      intro g
      change g ∈ a.keys ↔ g ∈ b.keys
      rw [Map.mem_keys, Map.mem_keys]
      exact h g
    refine ⟨?_, fun k hk => Map.mem_keys_has.1 (hperm.mem_iff.1 hk)⟩
    have := hperm.length_eq
    simpa [Map.keys, Map.size] using this

theorem verifyPhase_ok (r p : Phase) : verifyPhase r p = .ok () ↔
    SameRules p r ∧ ∀ rb, r.bulbStates = some rb → ∃ pb, p.bulbStates = some pb ∧ SameKeys pb rb := by
  have hb : verifyBulbs r p = .ok () ↔
      ∀ rb, r.bulbStates = some rb → ∃ pb, p.bulbStates = some pb ∧ SameKeys pb rb := by
    unfold verifyBulbs
    cases hr : r.bulbStates with
    | none => simp
    | some rb =>
      cases hp : p.bulbStates with
      | none => simp
      | some pb =>
        simp only [bind_ok, throwUnless_ok, decide_eq_true_eq, forM_ok, Option.some.injEq, forall_eq', ← sameKeys_iff]
        simp
  simp only [verifyPhase, bind_ok, throwUnless_ok, decide_eq_true_eq, forM_ok, hb, SameRules, ← sameKeys_iff]
  constructor
  · rintro ⟨-, h1, -, h2, -, h3, -, h4, h5⟩
    exact ⟨⟨⟨h1, h2⟩, h3, h4⟩, h5⟩
  · rintro ⟨⟨⟨h1, h2⟩, h3, h4⟩, h5⟩
    exact ⟨(), h1, (), h2, (), h3, (), h4, h5⟩

theorem indexPhases_ok (ps : List Phase) : ∀ (m m' : Map String Phase), indexPhases m ps = .ok m' ↔
    (ps.map (·.id)).Nodup ∧ (∀ p ∈ ps, m.get? p.id = none) ∧
      m'.entries = m.entries ++ ps.map (fun p => (p.id, p)) := by
  induction ps with
  | nil =>
    intro m m'
    simp only [indexPhases, Except.ok.injEq, List.map_nil, List.nodup_nil, List.not_mem_nil, false_imp_iff,
      implies_true, List.append_nil, true_and]
    constructor
    · rintro rfl; rfl
    · intro h; cases m; cases m'; simp_all
  | cons p ps ih =>
    intro m m'
    by_cases h : m.get? p.id = none
    · have h1 := Map.emplace_new p h
      have h2 := Map.emplace_entries (v := p) h
      unfold indexPhases
      simp only [h1.1, if_true]
      rw [ih]
      rw [h2]
      simp only [h1.2, List.map_cons, List.nodup_cons, List.mem_map, not_exists, not_and, List.mem_cons,
        forall_eq_or_imp, h, true_and, List.append_assoc, List.cons_append, List.nil_append]
      constructor
      · rintro ⟨h3, h4, h5⟩
        refine ⟨⟨fun q hq he => ?_, h3⟩, fun q hq => ?_, h5⟩
        · have := h4 q hq; rw [if_pos he] at this; cases this
        · have := h4 q hq
          split at this
          · cases this
          · exact this
      · rintro ⟨⟨h3, h4⟩, h5, h6⟩
        refine ⟨h4, fun q hq => ?_, h6⟩
        rw [if_neg (h3 q hq)]; exact h5 q hq
    · have h1 := Map.emplace_old (v := p) h
      unfold indexPhases
      simp only [h1, Bool.false_eq_true, if_false, reduceCtorEq, false_iff]
      rintro ⟨-, h2, -⟩
      exact h (h2 p (by simp))

theorem exists_indexPhases {ps : List Phase} (h : (ps.map (·.id)).Nodup) :
    ∃ m, indexPhases .empty ps = .ok m ∧ m.entries = ps.map (fun p => (p.id, p)) := by
  refine ⟨⟨ps.map (fun p => (p.id, p)), by simpa [List.map_map, Function.comp_def] using h⟩, ?_, rfl⟩
  rw [indexPhases_ok]
  exact ⟨h, by simp, rfl⟩

theorem noNext_keys (ps : List Phase) : ∀ m : Map String (List NextPhase), ∀ k,
    (ps.foldl (fun m p => (m.emplace p.id []).1) m).get? k =
      if m.get? k = none ∧ ∃ p ∈ ps, p.id = k then some [] else m.get? k := by
  induction ps with
  | nil => simp
  | cons p ps ih =>
    intro m k
    rw [List.foldl_cons, ih, Map.get?_emplace]
    by_cases hk : k = p.id
    · subst hk
      by_cases hm : m.get? p.id = none
      · simp [hm]
      · simp [hm]
    · have : ¬ (k = p.id ∧ m.get? p.id = none) := fun h => hk h.1
      rw [if_neg this]
      have : (∃ q ∈ p :: ps, q.id = k) ↔ ∃ q ∈ ps, q.id = k := by
        simp [Ne.symm hk]
      simp only [this]

/-- What the constructor of `PhaseRing` accepts, and what it returns. -/
theorem make_ok (id : String) (phases : List Phase) (next : Option (Map String (List NextPhase))) (r : Ring) :
    Ring.make id phases next = .ok r ↔
      (∃ p0 ps, phases = p0 :: ps ∧ ∀ p ∈ phases, verifyPhase p0 p = .ok ()) ∧
      (phases.map (·.id)).Nodup ∧
      (∀ n, next = some n → phases.length = n.size ∧ ∀ p ∈ phases, n.has p.id = true) ∧
      r.id = id ∧ r.phases.entries = phases.map (fun p => (p.id, p)) ∧
      r.nextPhases = next.getD (phases.foldl (fun m p => (m.emplace p.id []).1) .empty) := by
  have hbn : ∀ n', buildNext phases next = .ok n' ↔
      (∀ n, next = some n → phases.length = n.size ∧ ∀ p ∈ phases, n.has p.id = true) ∧
      n' = next.getD (phases.foldl (fun m p => (m.emplace p.id []).1) .empty) := by
    intro n'
    unfold buildNext
    cases next with
    | none =>
      simp only [pure_ok, reduceCtorEq, false_imp_iff, implies_true, true_and, Option.getD_none]
      exact eq_comm
    | some n =>
      simp only [bind_ok, verifyNextPhases, throwUnless_ok, decide_eq_true_eq, forM_ok, pure_ok, Option.some.injEq,
        forall_eq', Option.getD_some]
      constructor
      · rintro ⟨-, ⟨-, h1, h2⟩, h3⟩; exact ⟨⟨h1, h2⟩, h3.symm⟩
      · rintro ⟨⟨h1, h2⟩, h3⟩; exact ⟨(), ⟨(), h1, h2⟩, h3.symm⟩
  simp only [Ring.make, bind_ok, throwUnless_ok, decide_eq_true_eq, pure_ok, indexPhases_ok, hbn]
  constructor
  · rintro ⟨-, -, m, ⟨h1, -, h2⟩, n, ⟨h3, h4⟩, u, h5, rfl⟩
    refine ⟨?_, h1, h3, rfl, by simpa [Map.empty] using h2, h4⟩
    unfold verifyCoverage at h5
    cases phases with
    | nil => cases h5
    | cons p0 ps => exact ⟨p0, ps, rfl, forM_ok.1 h5⟩
  · rintro ⟨⟨p0, ps, rfl, h5⟩, h1, h3, h6, h2, h4⟩
    refine ⟨(), by simp, r.phases, ⟨h1, by simp, by simpa [Map.empty] using h2⟩, r.nextPhases, ⟨h3, h4⟩, (), ?_, ?_⟩
    · unfold verifyCoverage
      exact forM_ok.2 h5
    · cases r; simp_all

/-- What every ring a user can hold satisfies. -/
theorem valid_ring {r : Ring} (h : Valid r) :
    (∃ k p rest, r.phases.entries = (k, p) :: rest) ∧
    (∀ k p, r.getPhase k = some p → p.id = k) ∧
    (∀ k p l q, r.getPhase k = some p → r.getPhase l = some q → SameRules p q) ∧
    (∀ k, (∃ p, r.getPhase k = some p) ↔ (∃ l, r.getNextPhases k = .ok l)) := by
  obtain ⟨id, phases, next, h⟩ := h
  obtain ⟨⟨p0, ps, h0, h1⟩, h2, h3, h4, h5, h6⟩ := (make_ok _ _ _ _).1 h
  have hmem : ∀ k p, r.getPhase k = some p ↔ p ∈ phases ∧ p.id = k := by
    intro k p
    unfold Ring.getPhase
    rw [Map.get?_eq_some, h5]
    simp only [List.mem_map, Prod.mk.injEq]
    constructor
    · rintro ⟨q, hq, rfl, rfl⟩; exact ⟨hq, rfl⟩
    · rintro ⟨hp, rfl⟩; exact ⟨p, hp, rfl, rfl⟩
  refine ⟨⟨p0.id, p0, ps.map fun p => (p.id, p), by rw [h5, h0]; rfl⟩, fun k p hp => ((hmem k p).1 hp).2, ?_, ?_⟩
  · intro k p l q hp hq
    have a1 := ((verifyPhase_ok _ _).1 (h1 p ((hmem k p).1 hp).1)).1
    have a2 := ((verifyPhase_ok _ _).1 (h1 q ((hmem l q).1 hq).1)).1
    exact ⟨a1.1.trans a2.1.symm, a1.2.trans a2.2.symm⟩
  · intro k
    have hk : (∃ p, r.getPhase k = some p) ↔ k ∈ phases.map (·.id) := by
      simp [hmem]
    rw [hk]
    unfold Ring.getNextPhases
    simp only [Map.at!_ok, h6]
    cases next with
    | none =>
      simp only [Option.getD_none, noNext_keys, Map.get?_empty, true_and]
      by_cases hx : ∃ p ∈ phases, p.id = k
      · simp [hx]
      · simp [hx]
    | some n =>
      simp only [Option.getD_some]
      obtain ⟨g1, g2⟩ := h3 n rfl
      rw [← Map.mem_keys]
      have hsub : phases.map (·.id) ⊆ n.keys := by
        intro g hg
        obtain ⟨p, hp, rfl⟩ := List.mem_map.1 hg
        exact Map.mem_keys_has.2 (g2 p hp)
      have hperm : (phases.map (·.id)).Perm n.keys := by
        apply (List.subperm_of_subset h2 hsub).perm_of_length_le
        simp only [Map.keys, List.length_map]
        exact le_of_eq g1.symm
      exact hperm.mem_iff

/-! ### The book -/

theorem addRules_new (id : String) (ks : List String) : ∀ m : Map String String, ks.Nodup → (∀ k ∈ ks, m.get? k = none) →
    (addRules m id ks).2 = .ok () ∧
      ∀ k, (addRules m id ks).1.get? k = if k ∈ ks then some id else m.get? k := by
  induction ks with
  | nil => intro m _ _; simp [addRules]
  | cons x ks ih =>
    intro m hn hm
    have h1 := Map.emplace_new id (hm x (by simp))
    unfold addRules
    simp only [h1.1, if_true]
    rw [List.nodup_cons] at hn
    obtain ⟨h2, h3⟩ := ih (m.emplace x id).1 hn.2 (fun k hk => by
      rw [h1.2, if_neg (by rintro rfl; exact hn.1 hk)]; exact hm k (by simp [hk]))
    refine ⟨h2, fun k => ?_⟩
    rw [h3, h1.2]
    by_cases hk : k ∈ ks <;> by_cases hx : k = x <;> simp [hk, hx]

theorem removeRules_all (ks : List String) : ∀ m : Map String String, ks.Nodup → (∀ k ∈ ks, ∃ v, m.get? k = some v) →
    (removeRules m ks).2 = .ok () ∧
      ∀ k, (removeRules m ks).1.get? k = if k ∈ ks then none else m.get? k := by
  induction ks with
  | nil => intro m _ _; simp [removeRules]
  | cons x ks ih =>
    intro m hn hm
    unfold removeRules
    rw [if_pos (Map.has_iff.2 (hm x (by simp)))]
    rw [List.nodup_cons] at hn
    obtain ⟨h2, h3⟩ := ih (m.erase x) hn.2 (fun k hk => by
      rw [Map.get?_erase, if_neg (by rintro rfl; exact hn.1 hk)]; exact hm k (by simp [hk]))
    refine ⟨h2, fun k => ?_⟩
    rw [h3, Map.get?_erase]
    by_cases hk : k ∈ ks <;> by_cases hx : k = x <;> simp [hk, hx]

/-- How the book represents the rings `l`. -/
structure Inv (b : Book) (l : List Ring) : Prop where
  rings : ∀ id r, b.rings.get? id = some r ↔ r ∈ l ∧ r.id = id
  row : ∀ k id, b.rowRules.get? k = some id ↔ ∃ r ∈ l, r.id = id ∧ CoversRow r k
  rules : ∀ k id, b.rules.get? k = some id ↔ ∃ r ∈ l, r.id = id ∧ CoversDiscrete r k

theorem inv_empty : Inv .empty [] := by
  constructor <;> simp [Book.empty]

theorem Inv.unique {b : Book} {l : List Ring} (h : Inv b l) {r r' : Ring} (hr : r ∈ l) (hr' : r' ∈ l)
    (hid : r.id = r'.id) : r = r' := by
  have h1 := (h.rings r.id r).2 ⟨hr, rfl⟩
  have h2 := (h.rings r.id r').2 ⟨hr', hid.symm⟩
  rw [h1] at h2
  exact Option.some.inj h2

theorem Inv.noClash {b : Book} {l : List Ring} (h : Inv b l) {r r' : Ring} (hr : r ∈ l) (hr' : r' ∈ l)
    (hc : Clash r r') : r = r' := by
  apply h.unique hr hr'
  rcases hc with ⟨k, h1, h2⟩ | ⟨k, h1, h2⟩
  · have a := (h.row k r.id).2 ⟨r, hr, rfl, h1⟩
    have b := (h.row k r'.id).2 ⟨r', hr', rfl, h2⟩
    rw [a] at b; exact Option.some.inj b
  · have a := (h.rules k r.id).2 ⟨r, hr, rfl, h1⟩
    have b := (h.rules k r'.id).2 ⟨r', hr', rfl, h2⟩
    rw [a] at b; exact Option.some.inj b

/-- The rules of a ring are those of its first phase. -/
theorem covers_first {r : Ring} (hv : Valid r) {k0 : String} {p0 : Phase} {rest : List (String × Phase)}
    (he : r.phases.entries = (k0, p0) :: rest) (k : String) :
    (CoversRow r k ↔ k ∈ p0.ruleStates.keys) ∧ (CoversDiscrete r k ↔ k ∈ p0.discreteStates.keys) := by
  obtain ⟨-, -, hs, -⟩ := valid_ring hv
  have h0 : r.getPhase k0 = some p0 := by
    unfold Ring.getPhase; rw [Map.get?_eq_some, he]; simp
  constructor
  · rw [Map.mem_keys]
    constructor
    · rintro ⟨l, p, s, hp, hs'⟩
      exact ((hs _ _ _ _ hp h0).1 k).1 ⟨s, hs'⟩
    · rintro ⟨s, hs'⟩; exact ⟨k0, p0, s, h0, hs'⟩
  · rw [Map.mem_keys]
    constructor
    · rintro ⟨l, p, s, hp, hs'⟩
      exact ((hs _ _ _ _ hp h0).2 k).1 ⟨s, hs'⟩
    · rintro ⟨s, hs'⟩; exact ⟨k0, p0, s, h0, hs'⟩

theorem none_iff_forall {α : Type} {o : Option α} : o = none ↔ ∀ a, o ≠ some a := by
  cases o <;> simp

theorem step_add {b : Book} {l : List Ring} (h : Inv b l) {r : Ring} (hv : Valid r) (hn : ∀ x ∈ l, x.id ≠ r.id)
    (hc : ∀ x ∈ l, ¬ Clash x r) : (addPhaseRing b r).2 = .ok () ∧ Inv (addPhaseRing b r).1 (l ++ [r]) := by
  obtain ⟨⟨k0, p0, rest, he⟩, -⟩ := valid_ring hv
  have hcov := covers_first hv he
  have hnew : b.rings.get? r.id = none := by
    rw [none_iff_forall]
    intro x hx
    obtain ⟨h1, h2⟩ := (h.rings _ _).1 hx
    exact hn x h1 h2
  have hr := Map.emplace_new r hnew
  have hrow : ∀ k ∈ p0.ruleStates.keys, b.rowRules.get? k = none := by
    intro k hk
    rw [none_iff_forall]
    intro id hid
    obtain ⟨x, hx, -, hxc⟩ := (h.row _ _).1 hid
    exact hc x hx (.inl ⟨k, hxc, (hcov k).1.2 hk⟩)
  have hdis : ∀ k ∈ p0.discreteStates.keys, b.rules.get? k = none := by
    intro k hk
    rw [none_iff_forall]
    intro id hid
    obtain ⟨x, hx, -, hxc⟩ := (h.rules _ _).1 hid
    exact hc x hx (.inr ⟨k, hxc, (hcov k).2.2 hk⟩)
  obtain ⟨a1, a2⟩ := addRules_new r.id p0.ruleStates.keys b.rowRules p0.ruleStates.nodup hrow
  obtain ⟨b1, b2⟩ := addRules_new r.id p0.discreteStates.keys b.rules p0.discreteStates.nodup hdis
  unfold addPhaseRing
  simp only [hr.1, if_true, he]
  generalize ha : addRules b.rowRules r.id p0.ruleStates.keys = oa at a1 a2
  obtain ⟨row, o⟩ := oa
  simp only at a1 a2
  subst a1
  simp only
  refine ⟨b1, ?_, ?_, ?_⟩
  · intro id x
    rw [hr.2]
    split
    · next hid =>
      subst hid
      simp only [Option.some.injEq, List.mem_append, List.mem_singleton]
      constructor
      · rintro rfl; exact ⟨.inr rfl, rfl⟩
      · rintro ⟨hx | hx, hid⟩
        · exact (hn x hx hid).elim
        · exact hx.symm
    · next hid =>
      rw [h.rings]
      simp only [List.mem_append, List.mem_singleton]
      constructor
      · rintro ⟨h1, h2⟩; exact ⟨.inl h1, h2⟩
      · rintro ⟨h1 | rfl, h2⟩
        · exact ⟨h1, h2⟩
        · exact (hid h2.symm).elim
  · intro k id
    simp only
    rw [a2]
    simp only [List.mem_append, List.mem_singleton]
    split
    · next hk =>
      have hk' := (hcov k).1.2 hk
      simp only [Option.some.injEq]
      constructor
      · rintro rfl; exact ⟨r, .inr rfl, rfl, hk'⟩
      · rintro ⟨x, hx | rfl, hid, hxc⟩
        · exact (hc x hx (.inl ⟨k, hxc, hk'⟩)).elim
        · exact hid
    · next hk =>
      rw [h.row]
      constructor
      · rintro ⟨x, hx, h2⟩; exact ⟨x, .inl hx, h2⟩
      · rintro ⟨x, hx | rfl, hid, hxc⟩
        · exact ⟨x, hx, hid, hxc⟩
        · exact (hk ((hcov k).1.1 hxc)).elim
  · intro k id
    simp only
    rw [b2]
    simp only [List.mem_append, List.mem_singleton]
    split
    · next hk =>
      have hk' := (hcov k).2.2 hk
      simp only [Option.some.injEq]
      constructor
      · rintro rfl; exact ⟨r, .inr rfl, rfl, hk'⟩
      · rintro ⟨x, hx | rfl, hid, hxc⟩
        · exact (hc x hx (.inr ⟨k, hxc, hk'⟩)).elim
        · exact hid
    · next hk =>
      rw [h.rules]
      constructor
      · rintro ⟨x, hx, h2⟩; exact ⟨x, .inl hx, h2⟩
      · rintro ⟨x, hx | rfl, hid, hxc⟩
        · exact ⟨x, hx, hid, hxc⟩
        · exact (hk ((hcov k).2.1 hxc)).elim

theorem mem_remove {l : List Ring} {id : String} {x : Ring} : x ∈ apply l (.remove id) ↔ x ∈ l ∧ x.id ≠ id := by
  simp [apply]

theorem step_remove {b : Book} {l : List Ring} (h : Inv b l) (hv : ∀ x ∈ l, Valid x) {r : Ring} (hr : r ∈ l) :
    (removePhaseRing b r.id).2 = .ok () ∧ Inv (removePhaseRing b r.id).1 (apply l (.remove r.id)) := by
  obtain ⟨⟨k0, p0, rest, he⟩, -⟩ := valid_ring (hv r hr)
  have hcov := covers_first (hv r hr) he
  obtain ⟨a1, a2⟩ := removeRules_all p0.ruleStates.keys b.rowRules p0.ruleStates.nodup
    (fun k hk => ⟨r.id, (h.row k r.id).2 ⟨r, hr, rfl, (hcov k).1.2 hk⟩⟩)
  obtain ⟨b1, b2⟩ := removeRules_all p0.discreteStates.keys b.rules p0.discreteStates.nodup
    (fun k hk => ⟨r.id, (h.rules k r.id).2 ⟨r, hr, rfl, (hcov k).2.2 hk⟩⟩)
  unfold removePhaseRing
  simp only [(h.rings r.id r).2 ⟨hr, rfl⟩, he]
  generalize ha : removeRules b.rowRules p0.ruleStates.keys = oa at a1 a2
  obtain ⟨row, o⟩ := oa
  simp only at a1 a2
  subst a1
  simp only
  refine ⟨b1, ?_, ?_, ?_⟩
  · intro id x
    rw [Map.get?_erase, mem_remove]
    split
    · next hid => subst hid; simp
    · next hid =>
      rw [h.rings]
      constructor
      · rintro ⟨h1, rfl⟩; exact ⟨⟨h1, hid⟩, rfl⟩
      · rintro ⟨⟨h1, -⟩, h2⟩; exact ⟨h1, h2⟩
  · intro k id
    simp only
    rw [a2]
    simp only [mem_remove]
    split
    · next hk =>
      simp only [reduceCtorEq, false_iff]
      rintro ⟨x, ⟨hx, hne⟩, hid, hxc⟩
      exact hne (congrArg _ (h.noClash hx hr (.inl ⟨k, hxc, (hcov k).1.2 hk⟩)))
    · next hk =>
      rw [h.row]
      constructor
      · rintro ⟨x, hx, hid, hxc⟩
        refine ⟨x, ⟨hx, fun hne => ?_⟩, hid, hxc⟩
        have := h.unique hx hr hne
        subst this
        exact hk ((hcov k).1.1 hxc)
      · rintro ⟨x, ⟨hx, -⟩, h2⟩; exact ⟨x, hx, h2⟩
  · intro k id
    simp only
    rw [b2]
    simp only [mem_remove]
    split
    · next hk =>
      simp only [reduceCtorEq, false_iff]
      rintro ⟨x, ⟨hx, hne⟩, hid, hxc⟩
      exact hne (congrArg _ (h.noClash hx hr (.inr ⟨k, hxc, (hcov k).2.2 hk⟩)))
    · next hk =>
      rw [h.rules]
      constructor
      · rintro ⟨x, hx, hid, hxc⟩
        refine ⟨x, ⟨hx, fun hne => ?_⟩, hid, hxc⟩
        have := h.unique hx hr hne
        subst this
        exact hk ((hcov k).2.1 hxc)
      · rintro ⟨x, ⟨hx, -⟩, h2⟩; exact ⟨x, hx, h2⟩

theorem step_rejected {b : Book} {l : List Ring} (h : Inv b l) {op : Op} (hr : Rejected l op) :
    step b op = (b, .error .throws) ∧ apply l op = l := by
  cases op with
  | add r =>
    obtain ⟨x, hx, hid⟩ := hr
    have : b.rings.get? r.id ≠ none := by
      rw [(h.rings r.id x).2 ⟨hx, hid⟩]; simp
    constructor
    · simp [step, addPhaseRing, Map.emplace_old this]
    · simp only [apply]; rw [if_pos ⟨x, hx, hid⟩]
  | remove id =>
    have : b.rings.get? id = none := by
      rw [none_iff_forall]
      intro x hx
      obtain ⟨h1, h2⟩ := (h.rings _ _).1 hx
      exact hr x h1 h2
    constructor
    · simp [step, removePhaseRing, this]
    · simp only [apply]
      rw [List.filter_eq_self]
      intro x hx
      simpa using hr x hx

theorem live_snoc (ops : List Op) (op : Op) : live (ops ++ [op]) = apply (live ops) op := by simp [live]

theorem run_snoc (ops : List Op) (op : Op) : run (ops ++ [op]) = (step (run ops) op).1 := by simp [run]

theorem live_added (ops : List Op) : ∀ r ∈ live ops, Op.add r ∈ ops := by
  induction ops using List.reverseRecOn with
  | nil => simp [live]
  | append_singleton ops op ih =>
    intro r hr
    rw [live_snoc] at hr
    rw [List.mem_append, List.mem_singleton]
    cases op with
    | add x =>
      simp only [apply] at hr
      split at hr
      · exact .inl (ih r hr)
      · rw [List.mem_append, List.mem_singleton] at hr
        rcases hr with hr | rfl
        · exact .inl (ih r hr)
        · exact .inr rfl
    | remove id => exact .inl (ih r (mem_remove.1 hr).1)

theorem noClash_prefix {ops : List Op} {op : Op} (h : NoClash (ops ++ [op])) : NoClash ops :=
  fun pre r post he => h pre r (post ++ [op]) (by rw [he]; simp)

theorem validRings_prefix {ops : List Op} {op : Op} (h : ValidRings (ops ++ [op])) : ValidRings ops :=
  fun r hr => h r (by simp [hr])

theorem inv_step {ops : List Op} {op : Op} {b : Book} (h : Inv b (live ops)) (hn : NoClash (ops ++ [op]))
    (hv : ValidRings (ops ++ [op])) :
    Inv (step b op).1 (live (ops ++ [op])) ∧
      (Rejected (live ops) op → step b op = (b, .error .throws)) ∧
      (¬ Rejected (live ops) op → (step b op).2 = .ok ()) := by
  rw [live_snoc]
  by_cases hr : Rejected (live ops) op
  · obtain ⟨h1, h2⟩ := step_rejected h hr
    rw [h2, h1]
    exact ⟨h, fun _ => rfl, fun h => (h hr).elim⟩
  · cases op with
    | add r =>
      have hr' : ∀ x ∈ live ops, x.id ≠ r.id := fun x hx he => hr ⟨x, hx, he⟩
      obtain ⟨h1, h2⟩ := step_add h (hv r (by simp)) hr' (hn ops r [] rfl hr')
      refine ⟨?_, fun h => (hr h).elim, fun _ => h1⟩
      simp only [apply]
      have hr'' : ¬ ∃ x ∈ live ops, x.id = r.id := hr
      rw [if_neg hr'']
      exact h2
    | remove id =>
      unfold Rejected at hr
      push Not at hr
      obtain ⟨x, hx, rfl⟩ := hr
      obtain ⟨h1, h2⟩ := step_remove h (fun y hy => hv y (by simp [live_added ops y hy])) hx
      exact ⟨h2, fun h => (h x hx rfl).elim, fun _ => h1⟩

theorem inv_run (ops : List Op) : NoClash ops → ValidRings ops → Inv (run ops) (live ops) := by
  induction ops using List.reverseRecOn with
  | nil => intro _ _; exact inv_empty
  | append_singleton ops op ih =>
    intro hn hv
    rw [run_snoc]
    exact (inv_step (ih (noClash_prefix hn) (validRings_prefix hv)) hn hv).1

/-- Whatever the history, the rings of the book are the live ones. -/
theorem rings_run (ops : List Op) (id : String) (r : Ring) :
    (run ops).rings.get? id = some r ↔ r ∈ live ops ∧ r.id = id := by
  induction ops using List.reverseRecOn generalizing id r with
  | nil => simp [run, live, Book.empty]
  | append_singleton ops op ih =>
    rw [run_snoc, live_snoc]
    cases op with
    | add x =>
      have hst : (step (run ops) (.add x)).1.rings = ((run ops).rings.emplace x.id x).1 := by
        unfold step addPhaseRing
        simp only
        by_cases hn : (run ops).rings.get? x.id = none
        · rw [if_pos (Map.emplace_new x hn).1]
          rcases x.phases.entries with _ | ⟨⟨_, ph⟩, _⟩
          · rfl
          · simp only
            rcases addRules (run ops).rowRules x.id ph.ruleStates.keys with ⟨row, _ | ⟨⟨⟩⟩⟩ <;> rfl
        · rw [if_neg (by simp [Map.emplace_flag, hn]), Map.emplace_old hn]
      rw [hst, Map.get?_emplace]
      simp only [apply]
      by_cases hk : ∃ y ∈ live ops, y.id = x.id
      · rw [if_pos hk]
        obtain ⟨y, hy, hid⟩ := hk
        rw [(ih x.id y).2 ⟨hy, hid⟩]
        simp [ih]
      · rw [if_neg hk]
        have hn : (run ops).rings.get? x.id = none := by
          rw [none_iff_forall]
          intro y hy
          exact hk ⟨y, (ih _ _).1 hy⟩
        simp only [hn, and_true, List.mem_append, List.mem_singleton]
        split
        · next h =>
          subst h
          simp only [Option.some.injEq]
          constructor
          · rintro rfl; exact ⟨.inr rfl, rfl⟩
          · rintro ⟨h | rfl, h'⟩
            · exact (hk ⟨r, h, h'⟩).elim
            · rfl
        · next h =>
          rw [ih]
          constructor
          · rintro ⟨h1, h2⟩; exact ⟨.inl h1, h2⟩
          · rintro ⟨h1 | rfl, h2⟩
            · exact ⟨h1, h2⟩
            · exact (h h2.symm).elim
    | remove rid =>
      have hst : (step (run ops) (.remove rid)).1.rings = (run ops).rings.erase rid := by
        unfold step removePhaseRing
        simp only
        generalize ho : (run ops).rings.get? rid = o
        rcases o with _ | x
        · simp only
          have hne : ∀ e ∈ (run ops).rings.entries, e.1 ≠ rid := by
            intro e he hid
            rw [Map.get?_eq_none] at ho
            exact ho (List.mem_map.2 ⟨e, he, hid⟩)
          have : (run ops).rings.entries.filter (fun e => decide (e.1 ≠ rid)) = (run ops).rings.entries := by
            rw [List.filter_eq_self]
            intro e he
            simpa using hne e he
          unfold Map.erase
          simp only [this]
        · simp only
          rcases x.phases.entries with _ | ⟨⟨_, ph⟩, _⟩
          · rfl
          · simp only
            rcases removeRules (run ops).rowRules ph.ruleStates.keys with ⟨row, _ | ⟨⟨⟩⟩⟩ <;> rfl
      rw [hst, Map.get?_erase, mem_remove]
      split
      · next h => subst h; simp
      · next h =>
        rw [ih]
        constructor
        · rintro ⟨h1, rfl⟩; exact ⟨⟨h1, h⟩, rfl⟩
        · rintro ⟨⟨h1, -⟩, h2⟩; exact ⟨h1, h2⟩

/-! ### The provider -/

theorem prun_snoc (ops : List ProviderOp) (op : ProviderOp) :
    Provider.run (ops ++ [op]) = (Provider.step (Provider.run ops) op).1 := by simp [Provider.run]

theorem durationOk_iff (next : Option String) (duration : Option ℚ) :
    DurationOk next duration ↔ (duration.isSome && !next.isSome) = false := by
  unfold DurationOk
  cases next <;> cases duration <;> simp

/-- One call: accepted or not, and its effect. -/
theorem pstep_spec (p : Provider) (op : ProviderOp) :
    (Accepted (fun id => ∃ r, p.getPhase id = some r) op →
      (p.step op).2 = .ok () ∧
        ∀ id, (p.step op).1.getPhase id = if id = ringOf op then some (asked op) else p.getPhase id) ∧
    (¬ Accepted (fun id => ∃ r, p.getPhase id = some r) op → p.step op = (p, .error .throws)) := by
  cases op with
  | add id phase next duration =>
    simp only [Provider.step, Provider.addPhaseRing, Accepted, durationOk_iff, Provider.getPhase, ringOf, asked,
      computeNext]
    constructor
    · rintro ⟨h1, h2⟩
      rw [h1]
      have hn : Map.get? p id = none := by
        rw [none_iff_forall]; intro r hr; exact h2 ⟨r, hr⟩
      have := Map.emplace_new (⟨phase, next.map fun n => (n, duration)⟩ : Result String) hn
      simp only [Bool.false_eq_true, if_false, this.1, if_true, true_and]
      exact this.2
    · intro h
      by_cases h1 : (duration.isSome && !next.isSome) = false
      · have h2 : Map.get? p id ≠ none := by
          intro hn
          exact h ⟨h1, by rintro ⟨r, hr⟩; rw [hn] at hr; cases hr⟩
        rw [h1]; simp [Map.emplace_old h2]
      · rw [Bool.not_eq_false] at h1
        rw [if_pos h1]
  | set id phase next duration =>
    simp only [Provider.step, Provider.setPhase, Accepted, durationOk_iff, Provider.getPhase, ringOf, asked,
      computeNext]
    constructor
    · rintro ⟨h1, h2⟩
      rw [h1, Map.has_iff.2 h2]
      simp only [Bool.false_eq_true, if_false, Bool.not_true, true_and]
      intro k
      rw [Map.get?_set]
      rfl
    · intro h
      by_cases h1 : (duration.isSome && !next.isSome) = false
      · have h2 : Map.has p id = false := by
          rw [Bool.eq_false_iff]
          intro hh
          exact h ⟨h1, Map.has_iff.1 hh⟩
        rw [h1, h2]; rfl
      · rw [Bool.not_eq_false] at h1
        rw [if_pos h1]

theorem known_snoc (ops : List ProviderOp) (op : ProviderOp) (id : String) :
    Known (ops ++ [op]) id ↔ Known ops id ∨
      ∃ phase next duration, op = .add id phase next duration ∧ DurationOk next duration := by
  constructor
  · intro h
    generalize he : ops ++ [op] = l at h
    cases h with
    | added hd =>
      obtain ⟨-, h2⟩ := List.append_inj' he rfl
      simp only [List.cons.injEq, and_true] at h2
      exact .inr ⟨_, _, _, h2, hd⟩
    | later hk =>
      obtain ⟨h1, -⟩ := List.append_inj' he rfl
      exact .inl (h1 ▸ hk)
  · rintro (h | ⟨phase, next, duration, rfl, hd⟩)
    · exact .later h
    · exact .added hd

theorem known_iff (ops : List ProviderOp) (id : String) :
    Known ops id ↔ ∃ r, (Provider.run ops).getPhase id = some r := by
  induction ops using List.reverseRecOn generalizing id with
  | nil =>
    constructor
    · intro h
      generalize he : ([] : List ProviderOp) = l at h
      cases h <;> simp at he
    · rintro ⟨r, hr⟩; simp [Provider.run, Provider.getPhase] at hr
  | append_singleton ops op ih =>
    rw [known_snoc, prun_snoc]
    have hsame : (fun id => ∃ r, (Provider.run ops).getPhase id = some r) = Known ops :=
      funext fun id => propext (ih id).symm
    obtain ⟨h1, h2⟩ := pstep_spec (Provider.run ops) op
    rw [hsame] at h1 h2
    by_cases ha : Accepted (Known ops) op
    · obtain ⟨-, h3⟩ := h1 ha
      rw [h3]
      split
      · next hid =>
        simp only [Option.some.injEq, exists_eq', iff_true]
        cases op with
        | add k ph n d => simp only [ringOf] at hid; subst hid; exact .inr ⟨_, _, _, rfl, ha.1⟩
        | set k ph n d => simp only [ringOf] at hid; subst hid; exact .inl ha.2
      · next hid =>
        rw [← ih]
        constructor
        · rintro (h | ⟨ph, n, d, rfl, -⟩)
          · exact h
          · exact (hid rfl).elim
        · exact .inl
    · rw [h2 ha, ← ih]
      constructor
      · rintro (h | ⟨ph, n, d, rfl, hd⟩)
        · exact h
        · by_contra hk; exact ha ⟨hd, hk⟩
      · exact .inl

theorem pstep_run (ops : List ProviderOp) (op : ProviderOp) :
    (Accepted (Known ops) op → (Provider.step (Provider.run ops) op).2 = .ok () ∧
      ∀ id, (Provider.run (ops ++ [op])).getPhase id =
        if id = ringOf op then some (asked op) else (Provider.run ops).getPhase id) ∧
    (¬ Accepted (Known ops) op → Provider.step (Provider.run ops) op = (Provider.run ops, .error .throws)) := by
  have hsame : (fun id => ∃ r, (Provider.run ops).getPhase id = some r) = Known ops :=
    funext fun id => propext (known_iff ops id).symm
  have := pstep_spec (Provider.run ops) op
  rw [hsame] at this
  rw [prun_snoc]
  exact this

end Maliput.Phases
