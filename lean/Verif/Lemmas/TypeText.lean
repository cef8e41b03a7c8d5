import Verif.Lemmas.TypeErasure

set_option autoImplicit false

/-! Types can be read back from their text. -/
namespace Maliput.TypeErasure
open Spec

/-- The text is empty or begins with a mark. -/
def Marked (marks : List Char) (x : List Char) : Prop := ∀ c, x.head? = some c → c ∈ marks

/-- What can follow a type. -/
abbrev After (x : List Char) : Prop := Marked ['>', ',', '='] x

/-- What can follow a name. -/
abbrev Delim (x : List Char) : Prop := Marked ['<', '>', ',', '='] x

theorem After.delim {x : List Char} (h : After x) : Delim x := fun c hc => List.mem_cons_of_mem _ (h c hc)

theorem marked_cons {marks : List Char} {c : Char} (h : c ∈ marks) (x : List Char) : Marked marks (c :: x) := by
  intro d hd
  injection hd with hd
  exact hd ▸ h

theorem not_mark {c : Char} (h : NameChar c) : c ∉ ['<', '>', ',', '='] ∧ c ≠ '{' := by
  obtain ⟨-, -, a, b, -, d, e, f⟩ := nameChar_ne h
  exact ⟨by simp [a, b, d, e], f⟩

/-- A text that begins with something that is not a mark. -/
def Opens (x : List Char) : Prop := ∃ c rest, x = c :: rest ∧ c ∉ ['<', '>', ',', '=']

theorem Opens.append {x : List Char} (h : Opens x) (y : List Char) : Opens (x ++ y) := by
  obtain ⟨c, rest, rfl, h⟩ := h
  exact ⟨c, rest ++ y, rfl, h⟩

theorem Opens.not_delim {x : List Char} (h : Opens x) : ¬ Delim x := by
  obtain ⟨c, rest, rfl, h⟩ := h
  exact fun hd => h (hd c rfl)

theorem letters_anon_eq (unit : Nat) (n : List Token) :
    letters (.anonymous unit :: n) = '{' :: ("anonymous}".toList ++ letters n) := rfl

theorem letters_opens {n : List Token} (h : NameOk n) : Opens (letters n) := by
  obtain ⟨hne, h⟩ := h
  cases n with
  | nil => exact (hne rfl).elim
  | cons a n =>
    cases a with
    | char c => exact ⟨c, letters n, rfl, (not_mark (h c (by simp))).1⟩
    | anonymous k => exact ⟨'{', _, letters_anon_eq k n, by decide⟩

theorem letters_inj : ∀ (n m : List Token) (X Y : List Char), (∀ c, Token.char c ∈ n → NameChar c) →
    (∀ c, Token.char c ∈ m → NameChar c) → Delim X → Delim Y → letters n ++ X = letters m ++ Y →
    mergeName n = mergeName m ∧ X = Y := by
  intro n
  induction n with
  | nil =>
    intro m X Y _ hm hX _ h
    cases m with
    | nil => exact ⟨rfl, h⟩
    | cons a m =>
      have h' : X = letters (a :: m) ++ Y := h
      have ho : Opens X := h' ▸ (letters_opens ⟨by simp, hm⟩).append Y
      exact (ho.not_delim hX).elim
  | cons a n ih =>
    intro m X Y hn hm hX hY h
    cases m with
    | nil =>
      have h' : Y = letters (a :: n) ++ X := h.symm
      have ho : Opens Y := h' ▸ (letters_opens ⟨by simp, hn⟩).append X
      exact (ho.not_delim hY).elim
    | cons b m =>
      have hn' : ∀ c, Token.char c ∈ n → NameChar c := fun c hc => hn c (by simp [hc])
      have hm' : ∀ c, Token.char c ∈ m → NameChar c := fun c hc => hm c (by simp [hc])
      cases a with
      | char c =>
        cases b with
        | char d =>
          injection (show c :: (letters n ++ X) = d :: (letters m ++ Y) from h) with h1 h2
          obtain ⟨h3, h4⟩ := ih m X Y hn' hm' hX hY h2
          refine ⟨?_, h4⟩
          unfold mergeName at h3 ⊢
          rw [List.map_cons, List.map_cons, h3, h1]
        | anonymous k =>
          have h1 : c = '{' := by
            rw [letters_anon_eq] at h
            injection (show c :: (letters n ++ X) = '{' :: (("anonymous}".toList ++ letters m) ++ Y) from h)
          exact ((not_mark (hn c (by simp))).2 h1).elim
      | anonymous k =>
        cases b with
        | char d =>
          have h1 : d = '{' := by
            rw [letters_anon_eq] at h
            injection (show d :: (letters m ++ Y) = '{' :: (("anonymous}".toList ++ letters n) ++ X) from h.symm)
          exact ((not_mark (hm d (by simp))).2 h1).elim
        | anonymous l =>
          rw [letters_anonymous, letters_anonymous] at h
          obtain ⟨h3, h4⟩ := ih m X Y hn' hm' hX hY (List.append_cancel_left h)
          refine ⟨?_, h4⟩
          unfold mergeName at h3 ⊢
          rw [List.map_cons, List.map_cons, h3]

theorem text_opens : ∀ t, WellNamed t → Opens (text t)
  | .plain n, h => letters_opens h
  | .template n args, h => by
    rw [text, List.append_assoc]
    exact (letters_opens h.1).append _
  | .constant n u v, h => by
    simp only [text, List.append_assoc]
    exact (letters_opens h.1).append _
  | .matrix n u k ks, h => by
    simp only [text, List.append_assoc]
    exact (letters_opens h.1).append _

/-- What follows the first type of a sequence. -/
def tailOf (b : Pack) (r : List Char) : List Char :=
  match b with
  | .nil => '>' :: r
  | .cons _ _ => ',' :: (commas (texts b) ++ '>' :: r)

theorem commas_texts (a : CType) (b : Pack) (r : List Char) :
    commas (texts (.cons a b)) ++ '>' :: r = text a ++ tailOf b r := by
  cases b with
  | nil => rfl
  | cons b c =>
    simp only [texts, commas, tailOf, List.append_assoc, List.cons_append]

theorem tailOf_after (b : Pack) (r : List Char) : After (tailOf b r) := by
  cases b <;> exact marked_cons (by decide) _

theorem text_template (n : List Token) (args : Pack) (r : List Char) :
    text (.template n args) ++ r = letters n ++ '<' :: (commas (texts args) ++ '>' :: r) := by
  simp [text]

theorem text_constant (n : List Token) (u : CType) (v r : List Char) :
    text (.constant n u v) ++ r = letters n ++ '<' :: (text u ++ '=' :: (v ++ '>' :: r)) := by
  simp [text]

theorem text_matrix (n : List Token) (u : CType) (k : List Char) (ks : List (List Char)) (r : List Char) :
    text (.matrix n u k ks) ++ r =
      letters n ++ '<' :: (text u ++ ',' :: (commas ((k :: ks).map ("int=".toList ++ ·)) ++ '>' :: r)) := by
  simp [text]

theorem name_of {t : CType} (h : WellNamed t) : NameOk t.name := by
  cases t with
  | plain n => exact h
  | template n args => exact h.1
  | constant n u v => exact h.1
  | matrix n u k ks => exact h.1

/-- The text of a type: its name, and for an instance something that begins with a mark. -/
theorem text_shape (t : CType) (r : List Char) : ∃ x, text t ++ r = letters t.name ++ x ∧
    (IsInstance t ∧ (∃ y, x = '<' :: y) ∨ (∃ n, t = .plain n) ∧ x = r) := by
  cases t with
  | plain n => exact ⟨r, rfl, .inr ⟨⟨n, rfl⟩, rfl⟩⟩
  | template n args => exact ⟨_, text_template n args r, .inl ⟨trivial, _, rfl⟩⟩
  | constant n u v => exact ⟨_, text_constant n u v r, .inl ⟨trivial, _, rfl⟩⟩
  | matrix n u k ks => exact ⟨_, text_matrix n u k ks r, .inl ⟨trivial, _, rfl⟩⟩

theorem plain_inj {n : List Token} {u : CType} {r r' : List Char} (hn : ∀ c, Token.char c ∈ n → NameChar c)
    (hu : WellNamed u) (hr : After r) (hr' : After r') (h : letters n ++ r = text u ++ r') :
    merge (.plain n) = merge u ∧ r = r' := by
  obtain ⟨x, hx, h1⟩ := text_shape u r'
  rw [hx] at h
  have hd : Delim x := by
    rcases h1 with ⟨-, y, rfl⟩ | ⟨-, rfl⟩
    exacts [marked_cons (by decide) _, hr'.delim]
  obtain ⟨h2, h3⟩ := letters_inj _ _ _ _ hn (name_of hu).2 hr.delim hd h
  rcases h1 with ⟨-, y, rfl⟩ | ⟨⟨m, rfl⟩, rfl⟩
  · rw [h3] at hr
    exact absurd (hr '<' rfl) (by decide)
  · exact ⟨by rw [merge, merge, h2]; rfl, h3⟩

theorem value_inj {c d : Char} : ∀ {v v' : List Char} {r r' : List Char}, ValueOk v → ValueOk v' →
    c ∈ ['<', '>', ',', '='] → d ∈ ['<', '>', ',', '='] → v ++ c :: r = v' ++ d :: r' → v = v' ∧ c = d ∧ r = r' := by
  intro v
  induction v with
  | nil =>
    intro v' r r' _ hv' hc _ h
    cases v' with
    | nil =>
      injection h with h1 h2
      exact ⟨rfl, h1, h2⟩
    | cons e v' =>
      injection h with h1 h2
      exact ((not_mark (hv' e (by simp))).1 (h1 ▸ hc)).elim
  | cons e v ih =>
    intro v' r r' hv hv' hc hd h
    cases v' with
    | nil =>
      injection h with h1 h2
      exact ((not_mark (hv e (by simp))).1 (h1 ▸ hd)).elim
    | cons f v' =>
      injection h with h1 h2
      obtain ⟨h3, h4, h5⟩ := ih (fun x hx => hv x (by simp [hx])) (fun x hx => hv' x (by simp [hx])) hc hd h2
      exact ⟨by rw [h1, h3], h4, h5⟩

theorem commas_ints (k : List Char) (ks : List (List Char)) (r : List Char) :
    ∃ c y, commas ((k :: ks).map ("int=".toList ++ ·)) ++ '>' :: r = "int=".toList ++ (k ++ c :: y) ∧
      (ks = [] ∧ c = '>' ∧ y = r ∨ ks ≠ [] ∧ c = ',' ∧ y = commas (ks.map ("int=".toList ++ ·)) ++ '>' :: r) := by
  cases ks with
  | nil => exact ⟨'>', r, by simp only [List.map_cons, List.map_nil, commas, List.append_assoc], .inl ⟨rfl, rfl, rfl⟩⟩
  | cons l ks =>
    exact ⟨',', _, by simp only [List.map_cons, commas, List.append_assoc, List.cons_append], .inr ⟨by simp, rfl, rfl⟩⟩

theorem ints_inj : ∀ {k k' : List Char} {ks ks' : List (List Char)} {r r' : List Char}, ValueOk k → ValueOk k' →
    (∀ x ∈ ks, ValueOk x) → (∀ x ∈ ks', ValueOk x) →
    commas ((k :: ks).map ("int=".toList ++ ·)) ++ '>' :: r =
      commas ((k' :: ks').map ("int=".toList ++ ·)) ++ '>' :: r' → k = k' ∧ ks = ks' ∧ r = r' := by
  intro k k' ks
  induction ks generalizing k k' with
  | nil =>
    intro ks' r r' hk hk' _ _ h
    obtain ⟨c, y, h1, h2⟩ := commas_ints k [] r
    obtain ⟨d, z, h3, h4⟩ := commas_ints k' ks' r'
    rw [h1, h3] at h
    have hc : c ∈ ['<', '>', ',', '='] := by rcases h2 with ⟨-, rfl, -⟩ | ⟨-, rfl, -⟩ <;> decide
    have hd : d ∈ ['<', '>', ',', '='] := by rcases h4 with ⟨-, rfl, -⟩ | ⟨-, rfl, -⟩ <;> decide
    obtain ⟨h5, h6, h7⟩ := value_inj hk hk' hc hd (List.append_cancel_left h)
    rcases h2 with ⟨-, rfl, rfl⟩ | ⟨h2, -⟩
    · rcases h4 with ⟨rfl, -, rfl⟩ | ⟨-, rfl, -⟩
      · exact ⟨h5, rfl, h7⟩
      · exact absurd h6 (by decide)
    · exact (h2 rfl).elim
  | cons l ks ih =>
    intro ks' r r' hk hk' hks hks' h
    obtain ⟨c, y, h1, h2⟩ := commas_ints k (l :: ks) r
    obtain ⟨d, z, h3, h4⟩ := commas_ints k' ks' r'
    rw [h1, h3] at h
    have hc : c ∈ ['<', '>', ',', '='] := by rcases h2 with ⟨-, rfl, -⟩ | ⟨-, rfl, -⟩ <;> decide
    have hd : d ∈ ['<', '>', ',', '='] := by rcases h4 with ⟨-, rfl, -⟩ | ⟨-, rfl, -⟩ <;> decide
    obtain ⟨h5, h6, h7⟩ := value_inj hk hk' hc hd (List.append_cancel_left h)
    rcases h2 with ⟨h2, -⟩ | ⟨-, rfl, rfl⟩
    · cases h2
    rcases h4 with ⟨-, rfl, -⟩ | ⟨h4, -, rfl⟩
    · exact absurd h6 (by decide)
    cases ks' with
    | nil => exact (h4 rfl).elim
    | cons l' ks' =>
      obtain ⟨h8, h9, h10⟩ := ih (hks l (by simp)) (hks' l' (by simp)) (fun x hx => hks x (by simp [hx]))
        (fun x hx => hks' x (by simp [hx])) h7
      exact ⟨h5, by rw [h8, h9], h10⟩

theorem intName : ∀ c, Token.char c ∈ "int".toList.map Token.char → NameChar c := by
  intro c hc
  obtain ⟨d, hd, he⟩ := List.mem_map.1 hc
  injection he with he
  subst he
  have : d = 'i' ∨ d = 'n' ∨ d = 't' := by simpa using hd
  rcases this with rfl | rfl | rfl <;> exact ⟨by decide, by decide⟩

/-- A sequence of types is not a sequence of constants. -/
theorem pack_not_ints {b : Pack} {k : List Char} {ks : List (List Char)} {r r' : List Char} (hb : WellNamedPack b)
    (h : commas (texts b) ++ '>' :: r = commas ((k :: ks).map ("int=".toList ++ ·)) ++ '>' :: r') : False := by
  obtain ⟨c, y, h1, -⟩ := commas_ints k ks r'
  rw [h1] at h
  cases b with
  | nil =>
    injection (show '>' :: r = 'i' :: ("nt=".toList ++ (k ++ c :: y)) from h) with h
    exact absurd h (by decide)
  | cons a b =>
    rw [commas_texts] at h
    have h2 : letters ("int".toList.map Token.char) ++ '=' :: (k ++ c :: y) = text a ++ tailOf b r := h.symm
    obtain ⟨-, h3⟩ := plain_inj intName hb.1 (marked_cons (by decide) _) (tailOf_after b r) h2
    cases b <;> exact absurd (List.cons.inj h3).1 (by decide)

theorem after_eq (x : List Char) : After ('=' :: x) := marked_cons (by decide) x
theorem after_comma (x : List Char) : After (',' :: x) := marked_cons (by decide) x
theorem delim_lt (x : List Char) : Delim ('<' :: x) := marked_cons (by decide) x

mutual
theorem text_inj : ∀ (t u : CType), WellNamed t → WellNamed u → ∀ (r r' : List Char), After r → After r' →
    text t ++ r = text u ++ r' → merge t = merge u ∧ r = r'
  | .plain n, u, ht, hu, r, r', hr, hr', h => plain_inj ht.2 hu hr hr' h
  | .template n args, u, ht, hu, r, r', hr, hr', h => by
    rw [text_template] at h
    cases u with
    | plain m =>
      obtain ⟨h1, h2⟩ := letters_inj _ _ _ _ ht.1.2 hu.2 (delim_lt _) hr'.delim h
      exact absurd (hr' '<' (by rw [← h2]; rfl)) (by decide)
    | template m args' =>
      rw [text_template] at h
      obtain ⟨h1, h2⟩ := letters_inj _ _ _ _ ht.1.2 hu.1.2 (delim_lt _) (delim_lt _) h
      injection h2 with _ h2
      obtain ⟨h3, h4⟩ := pack_inj args args' ht.2 hu.2 r r' h2
      exact ⟨by rw [merge, merge, h1, h3], h4⟩
    | constant m u v =>
      rw [text_constant] at h
      obtain ⟨-, h2⟩ := letters_inj _ _ _ _ ht.1.2 hu.1.2 (delim_lt _) (delim_lt _) h
      injection h2 with _ h2
      exact (pack_not_constant args ht.2 hu.2.1 h2).elim
    | matrix m u k ks =>
      rw [text_matrix] at h
      obtain ⟨-, h2⟩ := letters_inj _ _ _ _ ht.1.2 hu.1.2 (delim_lt _) (delim_lt _) h
      injection h2 with _ h2
      exact (pack_not_matrix args ht.2 hu.2.1 h2).elim
  | .constant n w v, u, ht, hu, r, r', hr, hr', h => by
    rw [text_constant] at h
    cases u with
    | plain m =>
      obtain ⟨h1, h2⟩ := letters_inj _ _ _ _ ht.1.2 hu.2 (delim_lt _) hr'.delim h
      exact absurd (hr' '<' (by rw [← h2]; rfl)) (by decide)
    | template m args =>
      rw [text_template] at h
      obtain ⟨-, h2⟩ := letters_inj _ _ _ _ ht.1.2 hu.1.2 (delim_lt _) (delim_lt _) h
      injection h2 with _ h2
      cases args with
      | nil =>
        have ho : Opens ('>' :: r') := (show _ = '>' :: r' from h2) ▸ (text_opens w ht.2.1).append _
        exact (ho.not_delim (marked_cons (by decide) _)).elim
      | cons a b =>
        rw [commas_texts] at h2
        obtain ⟨-, h3⟩ := text_inj w a ht.2.1 hu.2.1 _ _ (after_eq _) (tailOf_after b r') h2
        cases b <;> exact absurd (List.cons.inj h3).1 (by decide)
    | constant m u v' =>
      rw [text_constant] at h
      obtain ⟨h1, h2⟩ := letters_inj _ _ _ _ ht.1.2 hu.1.2 (delim_lt _) (delim_lt _) h
      injection h2 with _ h2
      obtain ⟨h3, h4⟩ := text_inj w u ht.2.1 hu.2.1 _ _ (after_eq _) (after_eq _) h2
      injection h4 with _ h4
      obtain ⟨h5, -, h6⟩ := value_inj ht.2.2 hu.2.2 (by decide) (by decide) h4
      exact ⟨by rw [merge, merge, h1, h3, h5], h6⟩
    | matrix m u k ks =>
      rw [text_matrix] at h
      obtain ⟨-, h2⟩ := letters_inj _ _ _ _ ht.1.2 hu.1.2 (delim_lt _) (delim_lt _) h
      injection h2 with _ h2
      obtain ⟨-, h3⟩ := text_inj w u ht.2.1 hu.2.1 _ _ (after_eq _) (after_comma _) h2
      exact absurd (List.cons.inj h3).1 (by decide)
  | .matrix n w k ks, u, ht, hu, r, r', hr, hr', h => by
    rw [text_matrix] at h
    cases u with
    | plain m =>
      obtain ⟨h1, h2⟩ := letters_inj _ _ _ _ ht.1.2 hu.2 (delim_lt _) hr'.delim h
      exact absurd (hr' '<' (by rw [← h2]; rfl)) (by decide)
    | template m args =>
      rw [text_template] at h
      obtain ⟨-, h2⟩ := letters_inj _ _ _ _ ht.1.2 hu.1.2 (delim_lt _) (delim_lt _) h
      injection h2 with _ h2
      cases args with
      | nil =>
        have ho : Opens ('>' :: r') := (show _ = '>' :: r' from h2) ▸ (text_opens w ht.2.1).append _
        exact (ho.not_delim (marked_cons (by decide) _)).elim
      | cons a b =>
        rw [commas_texts] at h2
        obtain ⟨-, h3⟩ := text_inj w a ht.2.1 hu.2.1 _ _ (after_comma _) (tailOf_after b r') h2
        cases b with
        | nil => exact absurd (List.cons.inj h3).1 (by decide)
        | cons b c => exact (pack_not_ints hu.2.2 (List.cons.inj h3).2.symm).elim
    | constant m u v =>
      rw [text_constant] at h
      obtain ⟨-, h2⟩ := letters_inj _ _ _ _ ht.1.2 hu.1.2 (delim_lt _) (delim_lt _) h
      injection h2 with _ h2
      obtain ⟨-, h3⟩ := text_inj w u ht.2.1 hu.2.1 _ _ (after_comma _) (after_eq _) h2
      exact absurd (List.cons.inj h3).1 (by decide)
    | matrix m u k' ks' =>
      rw [text_matrix] at h
      obtain ⟨h1, h2⟩ := letters_inj _ _ _ _ ht.1.2 hu.1.2 (delim_lt _) (delim_lt _) h
      injection h2 with _ h2
      obtain ⟨h3, h4⟩ := text_inj w u ht.2.1 hu.2.1 _ _ (after_comma _) (after_comma _) h2
      injection h4 with _ h4
      obtain ⟨h5, h6, h7⟩ := ints_inj ht.2.2.1 hu.2.2.1 ht.2.2.2 hu.2.2.2 h4
      exact ⟨by rw [merge, merge, h1, h3, h5, h6], h7⟩
theorem pack_inj : ∀ (p q : Pack), WellNamedPack p → WellNamedPack q → ∀ (r r' : List Char),
    commas (texts p) ++ '>' :: r = commas (texts q) ++ '>' :: r' → mergePack p = mergePack q ∧ r = r'
  | .nil, q, _, hq, r, r', h => by
    cases q with
    | nil => exact ⟨rfl, (List.cons.inj h).2⟩
    | cons a b =>
      rw [commas_texts] at h
      have ho : Opens ('>' :: r) := (show '>' :: r = _ from h) ▸ (text_opens a hq.1).append _
      exact (ho.not_delim (marked_cons (by decide) _)).elim
  | .cons a b, q, hp, hq, r, r', h => by
    rw [commas_texts] at h
    cases q with
    | nil =>
      have ho : Opens ('>' :: r') := (show _ = '>' :: r' from h) ▸ (text_opens a hp.1).append _
      exact (ho.not_delim (marked_cons (by decide) _)).elim
    | cons a' b' =>
      rw [commas_texts] at h
      obtain ⟨h1, h2⟩ := text_inj a a' hp.1 hq.1 _ _ (tailOf_after b r) (tailOf_after b' r') h
      cases b with
      | nil =>
        cases b' with
        | nil => exact ⟨by simp only [mergePack, h1], (List.cons.inj h2).2⟩
        | cons b1 b2 => exact absurd (List.cons.inj h2).1 (by decide)
      | cons b1 b2 =>
        cases b' with
        | nil => exact absurd (List.cons.inj h2).1 (by decide)
        | cons b1' b2' =>
          obtain ⟨h3, h4⟩ := pack_inj (.cons b1 b2) (.cons b1' b2') hp.2 hq.2 r r' (List.cons.inj h2).2
          exact ⟨show Pack.cons (merge a) (mergePack (.cons b1 b2)) = .cons (merge a') (mergePack (.cons b1' b2')) by
            rw [h1, h3], h4⟩
theorem pack_not_constant : ∀ (p : Pack) {u : CType} {x r : List Char}, WellNamedPack p → WellNamed u →
    commas (texts p) ++ '>' :: r = text u ++ '=' :: x → False
  | .nil, u, x, r, _, hu, h => by
    have ho : Opens ('>' :: r) := (show '>' :: r = _ from h) ▸ (text_opens u hu).append _
    exact ho.not_delim (marked_cons (by decide) _)
  | .cons a b, u, x, r, hp, hu, h => by
    rw [commas_texts] at h
    obtain ⟨-, h2⟩ := text_inj a u hp.1 hu _ _ (tailOf_after b r) (after_eq _) h
    cases b <;> exact absurd (List.cons.inj h2).1 (by decide)
theorem pack_not_matrix : ∀ (p : Pack) {u : CType} {k : List Char} {ks : List (List Char)} {r r' : List Char},
    WellNamedPack p → WellNamed u →
    commas (texts p) ++ '>' :: r = text u ++ ',' :: (commas ((k :: ks).map ("int=".toList ++ ·)) ++ '>' :: r') → False
  | .nil, u, k, ks, r, r', _, hu, h => by
    have ho : Opens ('>' :: r) := (show '>' :: r = _ from h) ▸ (text_opens u hu).append _
    exact ho.not_delim (marked_cons (by decide) _)
  | .cons a b, u, k, ks, r, r', hp, hu, h => by
    rw [commas_texts] at h
    obtain ⟨-, h2⟩ := text_inj a u hp.1 hu _ _ (tailOf_after b r) (after_comma _) h
    cases b with
    | nil => exact absurd (List.cons.inj h2).1 (by decide)
    | cons b c => exact pack_not_ints hp.2 (List.cons.inj h2).2
end

theorem mergeName_letters (n m : List Token) (h : mergeName n = mergeName m) : letters n = letters m := by
  induction n generalizing m with
  | nil =>
    cases m with
    | nil => rfl
    | cons b m => cases h
  | cons a n ih =>
    cases m with
    | nil => cases h
    | cons b m =>
      unfold mergeName at h
      rw [List.map_cons, List.map_cons] at h
      injection h with h1 h2
      have := ih m h2
      cases a with
      | char c =>
        cases b with
        | char d =>
          have h3 : c = d := Token.char.inj h1
          exact congrArg₂ List.cons h3 this
        | anonymous l => cases h1
      | anonymous k =>
        cases b with
        | char d => cases h1
        | anonymous l => rw [letters_anon_eq, letters_anon_eq, this]

mutual
theorem merge_text : ∀ t u, merge t = merge u → text t = text u
  | .plain n, u, h => by
    cases u <;> simp only [merge, CType.plain.injEq, reduceCtorEq] at h
    exact mergeName_letters _ _ h
  | .template n args, u, h => by
    cases u <;> simp only [merge, CType.template.injEq, reduceCtorEq] at h
    rw [text, text, mergeName_letters _ _ h.1, merge_texts _ _ h.2]
  | .constant n w v, u, h => by
    cases u <;> simp only [merge, CType.constant.injEq, reduceCtorEq] at h
    rw [text, text, mergeName_letters _ _ h.1, merge_text _ _ h.2.1, h.2.2]
  | .matrix n w k ks, u, h => by
    cases u <;> simp only [merge, CType.matrix.injEq, reduceCtorEq] at h
    rw [text, text, mergeName_letters _ _ h.1, merge_text _ _ h.2.1, h.2.2.1, h.2.2.2]
theorem merge_texts : ∀ p q, mergePack p = mergePack q → texts p = texts q
  | .nil, q, h => by
    cases q <;> simp only [mergePack, reduceCtorEq] at h
    rfl
  | .cons a b, q, h => by
    cases q <;> simp only [mergePack, Pack.cons.injEq, reduceCtorEq] at h
    rw [texts, texts, merge_text _ _ h.1, merge_texts _ _ h.2]
end

/-! ### Bytes -/

theorem letters_bytes (n : List Token) (h : ∀ c, Token.char c ∈ n → NameChar c) : ∀ c ∈ letters n, c.toNat < 256 := by
  induction n with
  | nil => exact fun c hc => (List.not_mem_nil hc).elim
  | cons a n ih =>
    have hi := ih fun e he => h e (List.mem_cons_of_mem _ he)
    intro c hc
    cases a with
    | char d =>
      have hc' : c ∈ d :: letters n := hc
      rcases List.mem_cons.1 hc' with hd | hd
      · rw [hd]
        exact (h d List.mem_cons_self).1
      · exact hi c hd
    | anonymous k =>
      have hc' : c ∈ "{anonymous}".toList ++ letters n := hc
      rcases List.mem_append.1 hc' with hd | hd
      · have : ∀ c ∈ "{anonymous}".toList, c.toNat < 256 := by decide
        exact this c hd
      · exact hi c hd

theorem commas_mem : ∀ {l : List (List Char)} {c : Char}, c ∈ commas l → c = ',' ∨ ∃ x ∈ l, c ∈ x
  | [], c, h => by simp [commas] at h
  | [a], c, h => .inr ⟨a, by simp, h⟩
  | a :: b :: l, c, h => by
    rw [commas, List.mem_append, List.mem_cons] at h
    rcases h with h | h | h
    · exact .inr ⟨a, by simp, h⟩
    · exact .inl h
    · rcases commas_mem h with h | ⟨x, hx, h⟩
      · exact .inl h
      · exact .inr ⟨x, by simp [List.mem_cons.1 hx], h⟩

mutual
theorem text_bytes : ∀ t, WellNamed t → ∀ c ∈ text t, c.toNat < 256
  | .plain n, h, c, hc => letters_bytes n h.2 c hc
  | .template n args, h, c, hc => by
    simp only [text, List.mem_append, List.mem_cons, List.not_mem_nil, or_false] at hc
    rcases hc with (hc | rfl | hc) | rfl
    · exact letters_bytes n h.1.2 c hc
    · decide
    · rcases commas_mem hc with rfl | ⟨x, hx, hc⟩
      · decide
      · exact texts_bytes args h.2 x hx c hc
    · decide
  | .constant n u v, h, c, hc => by
    simp only [text, List.mem_append, List.mem_cons, List.not_mem_nil, or_false] at hc
    rcases hc with ((hc | rfl | hc) | rfl | hc) | rfl
    · exact letters_bytes n h.1.2 c hc
    · decide
    · exact text_bytes u h.2.1 c hc
    · decide
    · exact (h.2.2 c hc).1
    · decide
  | .matrix n u k ks, h, c, hc => by
    simp only [text, List.mem_append, List.mem_cons, List.not_mem_nil, or_false] at hc
    rcases hc with ((hc | rfl | hc) | rfl | hc) | rfl
    · exact letters_bytes n h.1.2 c hc
    · decide
    · exact text_bytes u h.2.1 c hc
    · decide
    · rcases commas_mem hc with rfl | ⟨x, hx, hc⟩
      · decide
      · obtain ⟨v, hv, rfl⟩ := List.mem_map.1 hx
        rcases List.mem_append.1 hc with hd | hd
        · have : ∀ c ∈ "int=".toList, c.toNat < 256 := by decide
          exact this c hd
        · rcases List.mem_cons.1 hv with rfl | hv
          · exact (h.2.2.1 c hd).1
          · exact (h.2.2.2 v hv c hd).1
    · decide
theorem texts_bytes : ∀ p, WellNamedPack p → ∀ x ∈ texts p, ∀ c ∈ x, c.toNat < 256
  | .nil, _, x, hx, c, hc => by simp [texts] at hx
  | .cons a b, h, x, hx, c, hc => by
    rcases List.mem_cons.1 (show x ∈ text a :: texts b from hx) with rfl | hx
    · exact text_bytes a h.1 c hc
    · exact texts_bytes b h.2 x hx c hc
end

theorem fnvByte_char (h : BitVec 64) {c : Char} (hc : c.toNat < 256) :
    Hash.fnvByte h (UInt8.ofNat c.toNat) = (h ^^^ BitVec.ofNat 64 c.toNat) * 1099511628211#64 := by
  unfold Hash.fnvByte
  congr 2
  apply BitVec.eq_of_toNat_eq
  rw [BitVec.toNat_setWidth, BitVec.toNat_ofNat]
  have : (UInt8.ofNat c.toNat).toBitVec.toNat = c.toNat := by
    change (UInt8.ofNat c.toNat).toNat = c.toNat
    rw [UInt8.toNat_ofNat']
    exact Nat.mod_eq_of_lt hc
  rw [this]

theorem fnv_text {w : List Char} (h : ∀ c ∈ w, c.toNat < 256) :
    fnv w = w.foldl (fun h ch => (h ^^^ BitVec.ofNat 64 ch.toNat) * 1099511628211#64) 0xcbf29ce484222325#64 := by
  have : ∀ (w : List Char) (s : BitVec 64), (∀ c ∈ w, c.toNat < 256) →
      (w.map fun c => UInt8.ofNat c.toNat).foldl Hash.fnvByte s =
        w.foldl (fun h ch => (h ^^^ BitVec.ofNat 64 ch.toNat) * 1099511628211#64) s := by
    intro w
    induction w with
    | nil => intro s _; rfl
    | cons c w ih =>
      intro s h
      rw [List.map_cons, List.foldl_cons, List.foldl_cons, fnvByte_char s (h c (by simp)),
        ih _ fun d hd => h d (by simp [hd])]
  exact this w _ h

theorem spells_append {a b : List Token} {w : List Char} (h : Spells (a ++ b) w) :
    ∃ w1 w2, w = w1 ++ w2 ∧ Spells a w1 ∧ Spells b w2 := by
  induction a generalizing w with
  | nil => exact ⟨[], w, rfl, .nil, h⟩
  | cons t a ih =>
    cases h with
    | @char c _ w h =>
      obtain ⟨w1, w2, rfl, h1, h2⟩ := ih h
      exact ⟨c :: w1, w2, rfl, .char c h1, h2⟩
    | @anonymous k x _ w hx h =>
      obtain ⟨w1, w2, rfl, h1, h2⟩ := ih h
      exact ⟨x ++ w1, w2, by rw [List.append_assoc], .anonymous k x hx h1, h2⟩

theorem scan_bad {a b : Char} (h : a = '(' ∧ b ≠ 'a' ∨ a = '<' ∧ b ≠ 'u') (rest : List Char) :
    scan false 0 (a :: b :: rest) = .ok ([], false) := by
  rcases h with ⟨rfl, hb⟩ | ⟨rfl, hb⟩
  · have : clangSpelling.isPrefixOf ('(' :: b :: rest) = false := by
      rw [show clangSpelling = '(' :: 'a' :: "nonymous namespace)".toList by decide]
      simp [List.isPrefixOf, Ne.symm hb]
    rw [scan, if_neg (by decide), this, if_neg (by simp), not_unnamed (by decide), if_neg (by simp),
      if_neg (by decide), if_pos rfl]
  · exact scan_nested false (by simpa using hb)

/-! ### Values -/

variable {V : Type}

theorem ideal_length (w : List (Value V)) (o : Op V) (h : AllExist w.length [o]) :
    (ideal w o).length = made w.length o := by
  have h := h.1
  cases o with
  | make t x => simp [ideal, made]
  | set i t x =>
    dsimp only at h
    simp only [ideal, List.getElem?_eq_getElem h, made]
    split <;> simp
  | setFrom i j =>
    dsimp only at h
    simp only [ideal, List.getElem?_eq_getElem h.1, List.getElem?_eq_getElem h.2, made]
    split <;> simp
  | clone i =>
    dsimp only at h
    simp [ideal, List.getElem?_eq_getElem h, made]

theorem cast_eq {armed : Bool} {hash : CType → BitVec 64} {t : CType} (v : Value V)
    (h : armed = false → hash t ≠ 0#64 → hash t = hash v.type → t = v.type) :
    TypeErasure.cast armed hash t v = if t = v.type then .ok v else .error .throws := by
  have hm : isMaybeMatched armed hash t v = decide (t = v.type) := by
    rw [isMaybeMatched]
    by_cases hz : armed || hash t == 0#64
    · rw [if_pos hz]
      rfl
    · rw [if_neg hz]
      simp only [Bool.or_eq_true, beq_iff_eq, not_or, Bool.not_eq_true] at hz
      rw [Bool.eq_iff_iff, beq_iff_eq, decide_eq_true_eq]
      exact ⟨h hz.1 hz.2, fun h => by rw [h]⟩
  rw [TypeErasure.cast, hm]
  by_cases ht : t = v.type <;> simp [ht]

theorem exec_ideal {armed : Bool} {hash : CType → BitVec 64} (w : List (Value V)) (o : Op V)
    (he : AllExist w.length [o])
    (hh : ∀ t u, Mentions w [o] t → Mentions w [o] u → armed = false → hash t ≠ 0#64 → hash t = hash u → t = u) :
    exec armed hash w o = .ok (ideal w o) ∨ exec armed hash w o = .error .throws ∧ ideal w o = w := by
  have he := he.1
  cases o with
  | make t x => exact .inl rfl
  | set i t x =>
    dsimp only at he
    have hm : w[i] ∈ w := List.getElem_mem he
    simp only [exec, ideal, List.getElem?_eq_getElem he, setValue]
    rw [cast_eq w[i] fun ha hz hx => hh t w[i].type (.inr ⟨_, by simp, .inr ⟨i, x, rfl⟩⟩) (.inl ⟨_, hm, rfl⟩) ha hz hx]
    by_cases ht : t = w[i].type
    · subst ht
      left
      simp [bind, Except.bind, pure, Except.pure]
    · right
      simp [ht, Ne.symm ht, bind, Except.bind]
  | setFrom i j =>
    dsimp only at he
    simp only [exec, ideal, List.getElem?_eq_getElem he.1, List.getElem?_eq_getElem he.2, setFrom, getValue]
    rw [cast_eq w[j] fun ha hz hx => hh _ _ (.inl ⟨_, List.getElem_mem he.1, rfl⟩) (.inl ⟨_, List.getElem_mem he.2, rfl⟩)
      ha hz hx]
    by_cases ht : w[i].type = w[j].type
    · left
      simp only [ht, if_true, bind, Except.bind, pure, Except.pure]
    · right
      simp [ht, bind, Except.bind]
  | clone i =>
    dsimp only at he
    left
    simp only [exec, ideal, List.getElem?_eq_getElem he, clone]

theorem mentions_head {w : List (Value V)} {o : Op V} {os : List (Op V)} {t : CType} (h : Mentions w [o] t) :
    Mentions w (o :: os) t := by
  rcases h with h | ⟨x, hx, h⟩
  · exact .inl h
  · rw [List.mem_singleton] at hx
    exact .inr ⟨x, by simp [hx], h⟩

theorem mentions_ideal {w : List (Value V)} {o : Op V} {os : List (Op V)} {t : CType} (h : Mentions (ideal w o) os t) :
    Mentions w (o :: os) t := by
  rcases h with ⟨v, hv, rfl⟩ | ⟨x, hx, h⟩
  · cases o with
    | make t x =>
      rcases List.mem_append.1 hv with hv | hv
      · exact .inl ⟨v, hv, rfl⟩
      · rw [List.mem_singleton] at hv
        exact .inr ⟨.make t x, by simp, .inl ⟨x, by rw [hv]⟩⟩
    | set i t x =>
      simp only [ideal] at hv
      split at hv
      · split at hv
        · rcases List.mem_or_eq_of_mem_set hv with hv | hv
          · exact .inl ⟨v, hv, rfl⟩
          · exact .inr ⟨.set i t x, by simp, .inr ⟨i, x, by rw [hv]⟩⟩
        · exact .inl ⟨v, hv, rfl⟩
      · exact .inl ⟨v, hv, rfl⟩
    | setFrom i j =>
      simp only [ideal] at hv
      split at hv
      · rename_i a b _ hb
        split at hv
        · rcases List.mem_or_eq_of_mem_set hv with hv | hv
          · exact .inl ⟨v, hv, rfl⟩
          · exact .inl ⟨b, List.mem_of_getElem? hb, by rw [hv]⟩
        · exact .inl ⟨v, hv, rfl⟩
      · exact .inl ⟨v, hv, rfl⟩
    | clone i =>
      simp only [ideal] at hv
      split at hv
      · rename_i a ha
        rcases List.mem_append.1 hv with hv | hv
        · exact .inl ⟨v, hv, rfl⟩
        · rw [List.mem_singleton] at hv
          exact .inl ⟨a, List.mem_of_getElem? ha, by rw [hv]⟩
      · exact .inl ⟨v, hv, rfl⟩
  · exact .inr ⟨x, by simp [hx], h⟩

end Maliput.TypeErasure
