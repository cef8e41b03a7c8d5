import Verif.Lemmas.TypeText
import Mathlib.Data.Fintype.Pigeonhole

set_option autoImplicit false

/-! C138: values of erased type, and the hashes of types that guard them. -/
namespace Maliput.Props
open Maliput.TypeErasure Maliput.TypeErasure.Spec

variable {V : Type}

/-! ### The hash of a type -/

/-- C138: what is hashed for a type is its text, whatever the compiler writes around it and however it writes anonymous
namespaces; the hash is that of the text, and it is not zero. -/
theorem type_hash_text {c : Compiler} (hc : Conforming c) {t : CType} (ht : WellNamed t) :
    ∃ h : BitVec 64, typeHash c t = .ok h ∧ h ≠ 0#64 ∧
      (h = (text t).foldl (fun h ch => (h ^^^ BitVec.ofNat 64 ch.toNat) * 1099511628211#64) 0xcbf29ce484222325#64 ∨
        h = 1#64 ∧
        (text t).foldl (fun h ch => (h ^^^ BitVec.ofNat 64 ch.toNat) * 1099511628211#64) 0xcbf29ce484222325#64 = 0#64) := by
  have hb : ∀ ch ∈ text t, ch.toNat < 256 := (text_bytes t ht)
  have hf : fnv (text t) =
      (text t).foldl (fun h ch => (h ^^^ BitVec.ofNat 64 ch.toNat) * 1099511628211#64) 0xcbf29ce484222325#64 :=
    fnv_text hb
  rw [← hf, typeHash, calcType_ok hc t ht]
  simp only [bind, Except.bind, pure, Except.pure, if_true]
  by_cases h0 : fnv (text t) = 0#64
  · rw [if_pos h0]
    exact ⟨_, rfl, by decide, .inr ⟨rfl, h0⟩⟩
  · rw [if_neg h0]
    exact ⟨_, rfl, h0, .inl rfl⟩

/-- C138: so the hash of a type is the same in all translation units and with all compilers. -/
theorem type_hash_stable {c c' : Compiler} (hc : Conforming c) (hc' : Conforming c') {t : CType} (ht : WellNamed t) :
    typeHash c t = typeHash c' t := by
  rw [typeHash, typeHash, calcType_ok hc t ht, calcType_ok hc' t ht]

/-- C138: what is hashed for two types is the same only if they are the same type, but for the anonymous namespaces of
different translation units: neither the order nor the nesting of template arguments nor constants can be confused. -/
theorem type_hash_input {c c' : Compiler} (hc : Conforming c) (hc' : Conforming c') {t u : CType} (ht : WellNamed t)
    (hu : WellNamed u) : calcType c t = calcType c' u ↔ merge t = merge u := by
  rw [calcType_ok hc t ht, calcType_ok hc' u hu]
  constructor
  · intro h
    injection h with h
    injection h with h
    exact (text_inj t u ht hu [] [] (fun c hc => by simp at hc) (fun c hc => by simp at hc)
      (by rw [List.append_nil, List.append_nil, h])).1
  · intro h
    rw [merge_text t u h]

/-- C138: types whose texts have the same length and differ in a single character have different hashes. -/
theorem type_hash_one_character {c : Compiler} (hc : Conforming c) {t u : CType} (ht : WellNamed t) (hu : WellNamed u)
    {p q : List Char} {a b : Char} (hab : a ≠ b) (h1 : text t = p ++ a :: q) (h2 : text u = p ++ b :: q)
    (hz : fnv (text t) ≠ 0#64) (hz' : fnv (text u) ≠ 0#64) : typeHash c t ≠ typeHash c u := by
  rw [typeHash, typeHash, calcType_ok hc t ht, calcType_ok hc u hu]
  simp only [bind, Except.bind, pure, Except.pure, if_true]
  rw [if_neg hz, if_neg hz', h1, h2]
  intro h
  injection h with h
  unfold fnv at h
  rw [List.map_append, List.map_append, List.foldl_append, List.foldl_append, List.map_cons, List.map_cons,
    List.foldl_cons, List.foldl_cons] at h
  have h3 := Hash.fnvByte_byte _ _ _ (Hash.foldl_fnv_state _ _ _ h)
  have ha : a.toNat < 256 := text_bytes t ht a (by rw [h1]; simp)
  have hb : b.toNat < 256 := text_bytes u hu b (by rw [h2]; simp)
  have h4 : a.toNat = b.toNat := by
    have := congrArg UInt8.toNat h3
    rw [UInt8.toNat_ofNat', UInt8.toNat_ofNat'] at this
    omega
  exact hab (Char.ext (UInt32.toNat_inj.1 h4))

/-- C138: a type whose name has a parenthesis, such as one that is local to a function, or that is nested in an instance
of a template, has the hash zero. -/
theorem type_hash_unsupported {c : Compiler} (hc : Conforming c) {pre post : List Token} {a b : Char}
    (hpre : ∀ d, Token.char d ∈ pre → NameChar d) (hab : a = '(' ∧ b ≠ 'a' ∨ a = '<' ∧ b ≠ 'u') :
    typeHash c (.plain (pre ++ .char a :: .char b :: post)) = .ok 0#64 := by
  obtain ⟨head, w, tail, h1, h2, h3, -⟩ := hc.type (.plain (pre ++ .char a :: .char b :: post))
  obtain ⟨w1, w2, rfl, h4, h5⟩ := spells_append h2
  cases h5 with
  | char _ h5 =>
    cases h5 with
    | @char _ _ w h5 =>
      have hs : ∃ x, calcType c (.plain (pre ++ .char a :: .char b :: post)) = .ok (x, false) := by
        rw [calcType, hashArgument, h3, skip_zero h1]
        simp only [bind, Except.bind, Bool.false_and, Bool.false_eq_true, if_false]
        rw [List.append_assoc, List.cons_append, List.cons_append]
        exact ⟨_, scan_name h4 hpre _ (scan_bad hab _)⟩
      obtain ⟨x, hs⟩ := hs
      rw [typeHash, hs]
      rfl

/-- C138: nevertheless different types can have the same hash, even without anonymous namespaces, since there are more
types than hashes. -/
theorem type_hash_collides {c : Compiler} (hc : Conforming c) : ∃ t u : CType, WellNamed t ∧ WellNamed u ∧
    merge t ≠ merge u ∧ typeHash c t = typeHash c u := by
  let f : ℕ → CType := fun k => .plain (List.replicate (k + 1) (.char 'a'))
  have hw : ∀ k, WellNamed (f k) := by
    intro k
    refine ⟨by simp, fun d hd => ?_⟩
    have := List.eq_of_mem_replicate hd
    injection this with this
    rw [this]
    exact ⟨by decide, by decide⟩
  have hfin : Finite (BitVec 64) := Finite.of_injective BitVec.toFin fun x y h => BitVec.eq_of_toFin_eq h
  obtain ⟨j, k, hjk, h⟩ := Finite.exists_ne_map_eq_of_infinite fun k => (type_hash_text hc (hw k)).choose
  refine ⟨f j, f k, hw j, hw k, ?_, ?_⟩
  · intro he
    have h1 : mergeName (List.replicate (j + 1) (Token.char 'a')) = mergeName (List.replicate (k + 1) (.char 'a')) := by
      injection he
    have h2 := congrArg List.length h1
    simp only [mergeName, List.length_map, List.length_replicate] at h2
    omega
  · rw [(type_hash_text hc (hw j)).choose_spec.1, (type_hash_text hc (hw k)).choose_spec.1]
    exact congrArg _ h

/-! ### Compilers -/

/-- A name as one of the compilers writes it. -/
def writeName (anonymous : List Char) : List Token → List Char
  | [] => []
  | .char c :: rest => c :: writeName anonymous rest
  | .anonymous _ :: rest => anonymous ++ writeName anonymous rest

theorem writeName_spells {a : List Char}
    (ha : a ∈ ["(anonymous namespace)".toList, "{anonymous}".toList, "<unnamed>".toList]) :
    ∀ n, Spells n (writeName a n)
  | [] => .nil
  | .char c :: n => .char c (writeName_spells ha n)
  | .anonymous k :: n => .anonymous k a ha (writeName_spells ha n)

/-- A compiler that writes functions like GCC. -/
def gccLike : Compiler where
  typeText t := "static constexpr bool calc(FNV1aHasher*) [with T ".toList ++ '=' :: ' ' ::
    (writeName "{anonymous}".toList t.name ++ "; bool <anonymous> = false]".toList)
  valueText _ v := "static constexpr bool calc(FNV1aHasher*) [with T ".toList ++ '=' :: ' ' ::
    ("E; T K ".toList ++ '=' :: ' ' :: ("(E)".toList ++ v ++ "]".toList))

/-- A compiler that writes functions like Clang. -/
def clangLike : Compiler where
  typeText t := "static bool calc(FNV1aHasher *) [T ".toList ++ '=' :: ' ' ::
    (writeName "(anonymous namespace)".toList t.name ++
      (match t with | .plain _ => "]".toList | _ => "<int, 3>]".toList))
  valueText _ v := "static bool calc(FNV1aHasher *) [T ".toList ++ '=' :: ' ' ::
    ("int, K ".toList ++ '=' :: ' ' :: ([] ++ v ++ "]".toList))

/-- Both are as they are supposed to be. -/
theorem compilers_conform : Conforming gccLike ∧ Conforming clangLike := by
  refine ⟨⟨fun t => ?_, fun t v => ?_⟩, ⟨fun t => ?_, fun t v => ?_⟩⟩
  · exact ⟨_, _, _, by decide, writeName_spells (by decide) _, rfl, .inl ⟨_, .inl rfl⟩⟩
  · exact ⟨_, _, _, _, by decide, by decide, .inr ⟨['E'], by decide, rfl⟩, ⟨_, .inr rfl⟩, rfl⟩
  · refine ⟨_, _, _, by decide, writeName_spells (by decide) _, rfl, ?_⟩
    cases t with
    | plain n => exact .inl ⟨_, .inr rfl⟩
    | template n args => exact .inr ⟨trivial, _, rfl, by decide⟩
    | constant n u v => exact .inr ⟨trivial, _, rfl, by decide⟩
    | matrix n u k ks => exact .inr ⟨trivial, _, rfl, by decide⟩
  · exact ⟨_, _, _, _, by decide, by decide, .inl rfl, ⟨_, .inr rfl⟩, rfl⟩

/-- A name without anonymous namespaces. -/
def named (s : String) : List Token := s.toList.map .char

/-- `double`, `Matrix<double, 3, 1>`, and `pair` of two types. -/
def doubleType : CType := .plain (named "double")
def vector3Type : CType := .matrix (named "Eigen::Matrix") doubleType "3".toList ["1".toList]
def pairType (a b : String) : CType :=
  .template (named "std::pair") (.cons (.plain (named a)) (.cons (.plain (named b)) .nil))

/-- A class with the given name in the anonymous namespace of a translation unit. -/
def hiddenType (unit : Nat) : CType := .plain (.anonymous unit :: named "::Data")

theorem named_ok {s : String} (h0 : s.toList ≠ []) (h : ∀ c ∈ s.toList, NameChar c) : NameOk (named s) := by
  refine ⟨by simpa [named] using h0, fun c hc => ?_⟩
  obtain ⟨d, hd, he⟩ := List.mem_map.1 hc
  injection he with he
  exact he ▸ h d hd

theorem hidden_ok (unit : Nat) : WellNamed (hiddenType unit) := by
  refine ⟨by simp, fun c hc => ?_⟩
  rcases List.mem_cons.1 hc with h | h
  · cases h
  · have h' : NameOk (named "::Data") :=
      named_ok (by decide) (by unfold NameChar; decide)
    exact h'.2 c h

example : WellNamed vector3Type ∧ WellNamed (pairType "cub" "scone") := by
  have h : ∀ s ∈ ["Eigen::Matrix", "double", "std::pair", "cub", "scone"], NameOk (named s) := by
    intro s hs
    refine named_ok ?_ ?_
    · revert s; decide
    · revert s; unfold NameChar; decide
  refine ⟨⟨h _ (by decide), h _ (by decide), ?_, ?_⟩, h _ (by decide), h _ (by decide), h _ (by decide), trivial⟩
  · unfold ValueOk NameChar; decide
  · unfold ValueOk NameChar; decide

/-- What is hashed, with both compilers. -/
example : calcType gccLike vector3Type = .ok ("Eigen::Matrix<double,int=3,int=1>".toList, true) ∧
    calcType clangLike vector3Type = .ok ("Eigen::Matrix<double,int=3,int=1>".toList, true) ∧
    calcType gccLike (pairType "cub" "scone") = .ok ("std::pair<cub,scone>".toList, true) ∧
    calcType clangLike (hiddenType 7) = .ok ("{anonymous}::Data".toList, true) ∧
    calcType gccLike (hiddenType 7) = .ok ("{anonymous}::Data".toList, true) := by
  decide +kernel

/-- A local type. -/
example : typeHash gccLike (.plain (named "f(int)::Local")) = .ok 0#64 := by decide +kernel

/-! ### Values -/

/-- C138: with assertions enabled, and for types with the hash zero, a value is given only to the type it has; any other
type gets an exception. -/
theorem value_access_exact {armed : Bool} {hash : CType → BitVec 64} {t : CType} (h : armed = true ∨ hash t = 0#64)
    (v : Value V) (x : V) :
    getValue armed hash t v = (if t = v.type then .ok v.content else .error .throws) ∧
    maybeGetValue armed hash t v = .ok (if t = v.type then some v.content else none) ∧
    setValue armed hash t x v = (if t = v.type then .ok ⟨t, x⟩ else .error .throws) := by
  have hm : isMaybeMatched armed hash t v = decide (t = v.type) := by
    rw [isMaybeMatched, if_pos (by simpa using h)]
    rfl
  rw [getValue, maybeGetValue, setValue, TypeErasure.cast, hm]
  by_cases ht : t = v.type
  · rw [ht]
    simp [bind, Except.bind, pure, Except.pure]
  · simp [ht, bind, Except.bind]

/-- C138: without assertions the access is decided by the hashes: it succeeds for the type of the value, throws for types
with another hash, and is undefined for another type with the same hash. -/
theorem value_access_release {hash : CType → BitVec 64} {t : CType} (h : hash t ≠ 0#64) (v : Value V) (x : V) :
    getValue false hash t v = (if t = v.type then .ok v.content
      else if hash t = hash v.type then .error .ub else .error .throws) ∧
    maybeGetValue false hash t v = (if t = v.type then .ok (some v.content)
      else if hash t = hash v.type then .error .ub else .ok none) ∧
    setValue false hash t x v = (if t = v.type then .ok ⟨t, x⟩
      else if hash t = hash v.type then .error .ub else .error .throws) := by
  have hm : isMaybeMatched false hash t v = decide (hash t = hash v.type) := by
    rw [isMaybeMatched, if_neg (by simpa using h)]
    rfl
  rw [getValue, maybeGetValue, setValue, TypeErasure.cast, hm]
  by_cases ht : t = v.type
  · rw [ht]
    simp [bind, Except.bind, pure, Except.pure]
  · by_cases hh : hash t = hash v.type
    · simp [ht, hh, bind, Except.bind]
    · simp [ht, hh, bind, Except.bind]

/-- C138: whatever is done with the values of a program, none is ever given or written as something it is not: every
value keeps its type; a write with another type throws and changes nothing; copies are independent.  Without assertions
this takes that the types with a hash have different hashes. -/
theorem values_history_partial {armed : Bool} {hash : CType → BitVec 64} (w : List (Value V)) (ops : List (Op V))
    (he : AllExist w.length ops)
    (hh : armed = true ∨ ∀ t u, Mentions w ops t → Mentions w ops u → hash t ≠ 0#64 → hash t = hash u → t = u) :
    run armed hash w ops = .ok (ops.foldl ideal w) := by
  induction ops generalizing w with
  | nil => rfl
  | cons o os ih =>
    have h1 := exec_ideal (armed := armed) (hash := hash) w o ⟨he.1, trivial⟩ fun t u ht hu ha hz hx => by
      rcases hh with hh | hh
      · rw [hh] at ha
        cases ha
      · exact hh t u (mentions_head ht) (mentions_head hu) hz hx
    have hl : (ideal w o).length = made w.length o := ideal_length w o ⟨he.1, trivial⟩
    have := ih (ideal w o) (by rw [hl]; exact he.2) (by
      rcases hh with hh | hh
      · exact .inl hh
      · exact .inr fun t u ht hu => hh t u (mentions_ideal ht) (mentions_ideal hu))
    rw [run, List.foldl_cons]
    rcases h1 with h1 | ⟨h1, h3⟩
    · rw [h1]
      exact this
    · rw [h1]
      rw [h3] at this ⊢
      exact this

/-- C138: a value has the type it was made with, and it has the value that was given to it last: an operation on other
values does not change it. -/
theorem values_independent (w : List (Value V)) (o : Op V) (i : Nat) (v : Value V) (hi : w[i]? = some v) :
    ∃ v', (ideal w o)[i]? = some v' ∧ v'.type = v.type ∧
      ((∀ t x, o ≠ .set i t x) → (∀ j, o ≠ .setFrom i j) → v' = v) := by
  obtain ⟨hlt, hv⟩ := List.getElem?_eq_some_iff.1 hi
  cases o with
  | make t x => exact ⟨v, by rw [ideal, List.getElem?_append_left hlt, hi], rfl, fun _ _ => rfl⟩
  | set j t x =>
    by_cases hj : j = i
    · subst hj
      simp only [ideal, hi]
      by_cases ht : v.type = t
      · rw [if_pos ht]
        exact ⟨⟨t, x⟩, by rw [List.getElem?_set_self hlt], ht.symm, fun h _ => (h t x rfl).elim⟩
      · rw [if_neg ht]
        exact ⟨v, hi, rfl, fun _ _ => rfl⟩
    · refine ⟨v, ?_, rfl, fun _ _ => rfl⟩
      simp only [ideal]
      cases w[j]? with
      | none => exact hi
      | some u =>
        dsimp only
        by_cases ht : u.type = t
        · rw [if_pos ht, List.getElem?_set_ne hj, hi]
        · rw [if_neg ht, hi]
  | setFrom j k =>
    by_cases hj : j = i
    · subst hj
      simp only [ideal, hi]
      cases hk : w[k]? with
      | none => exact ⟨v, hi, rfl, fun _ _ => rfl⟩
      | some o =>
        dsimp only
        by_cases ht : v.type = o.type
        · rw [if_pos ht]
          exact ⟨o, by rw [List.getElem?_set_self hlt], ht.symm, fun _ h => (h k rfl).elim⟩
        · rw [if_neg ht]
          exact ⟨v, hi, rfl, fun _ _ => rfl⟩
    · refine ⟨v, ?_, rfl, fun _ _ => rfl⟩
      simp only [ideal]
      cases w[j]? with
      | none => exact hi
      | some u =>
        cases w[k]? with
        | none => exact hi
        | some o =>
          dsimp only
          by_cases ht : u.type = o.type
          · rw [if_pos ht, List.getElem?_set_ne hj, hi]
          · rw [if_neg ht, hi]
  | clone j =>
    refine ⟨v, ?_, rfl, fun _ _ => rfl⟩
    simp only [ideal]
    cases w[j]? with
    | none => exact hi
    | some u => rw [List.getElem?_append_left hlt, hi]

/-- C138: two classes of the same name in the anonymous namespaces of two translation units have the same hash.  Reading
a value of one as the other throws with assertions and is undefined behaviour without them. -/
theorem value_anonymous_confusion {c : Compiler} (hc : Conforming c) {hash : CType → BitVec 64}
    (hh : ∀ t, WellNamed t → typeHash c t = .ok (hash t)) (x : V) :
    getValue true hash (hiddenType 0) ⟨hiddenType 1, x⟩ = .error .throws ∧
    getValue false hash (hiddenType 0) ⟨hiddenType 1, x⟩ = .error .ub := by
  have hne : hiddenType 0 ≠ hiddenType 1 := by decide
  have he : hash (hiddenType 0) = hash (hiddenType 1) := by
    have h0 := hh _ (hidden_ok 0)
    have h1 := hh _ (hidden_ok 1)
    have : typeHash c (hiddenType 0) = typeHash c (hiddenType 1) := by
      rw [typeHash, typeHash, (type_hash_input hc hc (hidden_ok 0) (hidden_ok 1)).2 (by decide)]
    rw [h0, h1] at this
    exact Except.ok.inj this
  have hz : hash (hiddenType 0) ≠ 0#64 := by
    obtain ⟨h, h1, h2, -⟩ := type_hash_text hc (hidden_ok 0)
    have := hh _ (hidden_ok 0)
    rw [h1] at this
    exact Except.ok.inj this ▸ h2
  refine ⟨?_, ?_⟩
  · rw [(value_access_exact (.inl rfl) _ x).1, if_neg hne]
  · rw [(value_access_release hz _ x).1, if_neg hne, if_pos he]

/-- The hashes of all types, with GCC. -/
def gccHash (t : CType) : BitVec 64 := (typeHash gccLike t).toOption.getD 0#64

/-- The hypotheses of `values_history_partial` hold of a program that writes, copies and mistakes types. -/
example : AllExist 0 [.make doubleType 1, .make vector3Type 2, .clone 0, .set 0 doubleType 5, .set 1 doubleType 6,
      .setFrom 2 1, .setFrom 2 0] ∧
    gccHash doubleType ≠ gccHash vector3Type ∧ gccHash doubleType ≠ 0#64 ∧
    run false gccHash ([] : List (Value Nat)) [.make doubleType 1, .make vector3Type 2, .clone 0, .set 0 doubleType 5,
      .set 1 doubleType 6, .setFrom 2 1, .setFrom 2 0] = .ok [⟨doubleType, 5⟩, ⟨vector3Type, 2⟩, ⟨doubleType, 5⟩] := by
  refine ⟨by simp [AllExist, made], by decide +kernel, by decide +kernel, by decide +kernel⟩

end Maliput.Props
