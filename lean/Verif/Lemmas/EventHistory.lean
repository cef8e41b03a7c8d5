import Verif.Lemmas.EventTrees

set_option autoImplicit false

/-! Lemmas about histories of collections of events, and about the collections of diagrams. -/
namespace Maliput.EventColl
open Maliput Spec

variable {E S D : Type}

theorem change_ne {p : Plains E} {i k : Nat} {x : Plain E} (h : Has p k x) (hk : i ≠ k) (f : Plain E → Plain E) : Has (change p i f) k x := by
  rw [Has] at h ⊢
  rw [change, List.getElem?_modify, h]
  simp [hk]

theorem emptied_ne : ∀ (l : List Nat) {p : Plains E} {k : Nat} {x : Plain E}, Has p k x → k ∉ l → Has (emptied p l) k x := by
  intro l
  induction l with
  | nil => intro p k x h _; exact h
  | cons i l ih =>
    intro p k x h hk
    simp only [List.mem_cons, not_or] at hk
    rw [emptied, List.foldl_cons]
    exact ih (change_ne h (Ne.symm hk.1) _) hk.2

theorem emptied_live : ∀ (l : List Nat) {p : Plains E} {k : Nat} {x : Plain E}, Has p k x →
    ∃ y, Has (emptied p l) k y ∧ y.room = x.room ∧ (k ∈ l → y.events = []) ∧ (x.events = [] → y.events = []) := by
  intro l
  induction l with
  | nil => intro p k x h; exact ⟨x, h, rfl, by simp, id⟩
  | cons i l ih =>
    intro p k x h
    rw [emptied, List.foldl_cons]
    by_cases hk : i = k
    · subst hk
      rw [change_set h]
      obtain ⟨y, h1, h2, -, h4⟩ := ih (h.set_self (y := { x with events := [] }))
      exact ⟨y, h1, h2, fun _ => h4 rfl, fun _ => h4 rfl⟩
    · have h' : Has (change p i fun x => { x with events := [] }) k x := change_ne h hk _
      obtain ⟨y, h1, h2, h3, h4⟩ := ih h'
      exact ⟨y, h1, h2, fun hm => h3 (by
        rcases List.mem_cons.1 hm with e | e
        · exact absurd e.symm hk
        · exact e), h4⟩

theorem mem_zip {α β : Type} {a : List α} {b : List β} {x : α × β} (h : x ∈ a.zip b) : x.1 ∈ a ∧ x.2 ∈ b := List.of_mem_zip h

/-- What a call does to a collection from which it does not remove events. -/
def Grows (w w' : World E) (p p' : Plains E) (k : Nat) : Prop :=
  ∀ x, Has p k x → x.events ≠ [] → ∃ x', Has p' k x' ∧ x.room ≤ x'.room ∧ x.events <+: x'.events ∧
    (x'.events.length ≤ x.room → Stays w w' k)

theorem Grows.same {w w' : World E} {p p' : Plains E} {k : Nat} (hp : ∀ x, Has p k x → Has p' k x) (hw : w'.colls[k]? = w.colls[k]?) :
    Grows w w' p p' k := fun x hx _ => ⟨x, hp x hx, le_rfl, List.prefix_rfl, fun _ => Stays.of_eq hw⟩

theorem exec_refines (A : Allocator E) {w : World E} {p : Plains E} (h : Refines w p) {op : Op E} (hv : Valid p op) :
    ∃ w', exec A w op = .ok w' ∧ Refines w' (meant p op) ∧ ∀ k, Keeps k op → Grows w w' p (meant p op) k := by
  have hmake : ∀ k, Grows w (make A w) p (p ++ [some ⟨[], 32⟩]) k := by
    intro k x hx _
    have hlt := (List.getElem?_eq_some_iff.1 hx).1
    refine ⟨x, ?_, le_rfl, List.prefix_rfl, fun _ => Stays.of_eq ?_⟩
    · rw [Has, List.getElem?_append_left hlt]; exact hx
    · simp only [make]
      rw [List.getElem?_append_left (by rw [h.len]; exact hlt)]
  cases op with
  | make => exact ⟨_, rfl, make_refines A h, fun k _ => hmake k⟩
  | makeForced e =>
    have h0 := make_refines A h
    have hx : Has (p ++ [some (⟨[], 32⟩ : Plain E)]) p.length ⟨[], 32⟩ := by rw [Has, List.getElem?_concat_length]
    obtain ⟨w', h1, h2, -, h4⟩ := addEvent_refines A h0 hx e
    refine ⟨w', by simpa only [exec, makeForced, h.len] using h1, ?_, ?_⟩
    · simpa [meant] using h2
    · intro k _ x hx' hne
      have hlt := (List.getElem?_eq_some_iff.1 hx').1
      refine ⟨x, ?_, le_rfl, List.prefix_rfl, fun _ => Stays.of_eq ?_⟩
      · rw [Has, meant, List.getElem?_append_left hlt]; exact hx'
      · rw [h4 k (by omega)]
        simp only [make]
        rw [List.getElem?_append_left (by rw [h.len]; exact hlt)]
  | destroy i =>
    obtain ⟨x, hx⟩ := hv
    obtain ⟨w', h1, h2, h3⟩ := destroy_refines h hx
    exact ⟨w', h1, h2, fun k hk => Grows.same (fun y hy => hy.set_ne hk) (h3 k (Ne.symm hk))⟩
  | reserve i n =>
    obtain ⟨x, hx, hv⟩ := hv
    obtain ⟨w', h1, h2, h3, h4⟩ := reserve_refines A h hx hv
    refine ⟨w', h1, by rw [meant, change_set hx]; exact h2, fun k _ => ?_⟩
    rw [meant, change_set hx]
    by_cases hk : i = k
    · subst hk
      intro y hy hne
      obtain rfl := hy.unique hx
      exact ⟨_, hx.set_self, le_max_left _ _, List.prefix_rfl, fun _ => h3 (hv.resolve_left hne)⟩
    · exact Grows.same (fun y hy => hy.set_ne hk) (h4 k (Ne.symm hk))
  | add t e =>
    obtain ⟨i, x, rfl, hx⟩ := hv
    obtain ⟨w', h1, h2, h3, h4⟩ := addEvent_refines A h hx e
    have hm : meant p (.add (.leaf i) e) = p.set i (some { x with events := x.events ++ [e] }) := by
      rw [meant, leaves, List.foldl_cons, List.foldl_nil, change_set hx]
    refine ⟨w', h1, by rw [hm]; exact h2, fun k _ => ?_⟩
    rw [hm]
    by_cases hk : i = k
    · subst hk
      intro y hy hne
      obtain rfl := hy.unique hx
      exact ⟨_, hx.set_self, le_rfl, List.prefix_append _ _, fun hle => h3 (by simp only [List.length_append, List.length_cons, List.length_nil] at hle; omega)⟩
    · exact Grows.same (fun y hy => hy.set_ne hk) (h4 k (Ne.symm hk))
  | clear t =>
    obtain ⟨w', h1, h2, h3⟩ := clears_refines (leaves t) h hv.2
    refine ⟨w', by rw [exec, clear_eq hv.1]; exact h1, h2, fun k hk => ?_⟩
    exact Grows.same (fun y hy => emptied_ne _ hy hk) (h3 k hk)
  | addToEnd t other =>
    obtain ⟨ht, ho, hs, hd⟩ := hv
    obtain ⟨w', h1, h2, h3⟩ := appends_refines A ((leaves t).zip (leaves other)) h (by
      intro ij hij
      obtain ⟨m1, m2⟩ := mem_zip hij
      exact ⟨fun e => hd _ m1 (e ▸ m2), ht.2 _ m1, ho.2 _ m2⟩)
    refine ⟨w', by rw [exec, addToEnd_eq A hs]; exact h1, h2, fun k _ x hx _ => ?_⟩
    obtain ⟨x', e1, e2, e3, e4⟩ := h3 k x hx
    exact ⟨x', e1, e2.ge, e3, e4⟩
  | setFrom t other =>
    obtain ⟨ht, ho, hs, hd⟩ := hv
    obtain ⟨w1, h1, h2, h3⟩ := clears_refines (leaves t) h ht.2
    obtain ⟨w', h4, h5, h6⟩ := appends_refines A ((leaves t).zip (leaves other)) h2 (by
      intro ij hij
      obtain ⟨m1, m2⟩ := mem_zip hij
      obtain ⟨x, hx⟩ := ht.2 _ m1
      obtain ⟨y, hy⟩ := ho.2 _ m2
      obtain ⟨x', hx', -⟩ := emptied_live (leaves t) hx
      obtain ⟨y', hy', -⟩ := emptied_live (leaves t) hy
      exact ⟨fun e => hd _ m1 (e ▸ m2), ⟨x', hx'⟩, y', hy'⟩)
    refine ⟨w', ?_, h5, fun k hk x hx _ => ?_⟩
    · rw [exec, Tree.setFrom, clear_eq ht.1, h1]
      exact (addToEnd_eq A hs w1).trans h4
    · obtain ⟨x', e1, e2, e3, e4⟩ := h6 k x (emptied_ne _ hx hk)
      exact ⟨x', e1, e2.ge, e3, fun hle => (Stays.of_eq (h3 k hk)).trans (e4 hle)⟩

theorem run_refines (A : Allocator E) : ∀ (ops : List (Op E)) {w : World E} {p : Plains E}, Refines w p → AllValid p ops →
    ∃ w', run A w ops = .ok w' ∧ Refines w' (meantRun p ops) ∧ ∀ k, (∀ op ∈ ops, Keeps k op) → Grows w w' p (meantRun p ops) k := by
  intro ops
  induction ops with
  | nil => intro w p h _; exact ⟨w, rfl, h, fun k _ => Grows.same (fun _ h => h) rfl⟩
  | cons op ops ih =>
    intro w p h hv
    obtain ⟨w1, h1, h2, h3⟩ := exec_refines A h hv.1
    obtain ⟨w2, h4, h5, h6⟩ := ih h2 hv.2
    refine ⟨w2, by rw [run, List.foldlM_cons, h1]; exact h4, h5, fun k hk x hx hne => ?_⟩
    obtain ⟨y, e1, e2, e3, e4⟩ := h3 k (hk op (by simp)) x hx hne
    have hne' : y.events ≠ [] := by
      intro he
      rw [he] at e3
      exact hne (List.prefix_nil.1 e3)
    obtain ⟨z, e5, e6, e7, e8⟩ := h6 k (fun o ho => hk o (by simp [ho])) y e1 hne'
    exact ⟨z, e5, e2.trans e6, e3.trans e7, fun hle => (e4 (e7.length_le.trans hle)).trans (e8 (hle.trans e2))⟩

theorem allValid_append : ∀ (a b : List (Op E)) (p : Plains E), AllValid p (a ++ b) ↔ AllValid p a ∧ AllValid (meantRun p a) b := by
  intro a
  induction a with
  | nil => intro b p; simp [AllValid, meantRun]
  | cons x a ih =>
    intro b p
    rw [List.cons_append, AllValid, AllValid, ih, and_assoc]
    rfl

theorem run_append (A : Allocator E) (w : World E) (a b : List (Op E)) : run A w (a ++ b) = run A w a >>= fun w => run A w b := by
  rw [run, List.foldlM_append]
  rfl

theorem meantRun_append (p : Plains E) (a b : List (Op E)) : meantRun p (a ++ b) = meantRun (meantRun p a) b := by
  rw [meantRun, List.foldl_append]
  rfl

/-! ### What adding collections means -/

theorem appended_ne : ∀ (l : List (Nat × Nat)) {p : Plains E} {k : Nat} {x : Plain E}, Has p k x → k ∉ l.map (·.1) →
    Has (appended p l) k x := by
  intro l
  induction l with
  | nil => intro p k x h _; exact h
  | cons ij l ih =>
    intro p k x h hk
    simp only [List.map_cons, List.mem_cons, not_or] at hk
    exact ih (change_ne h (Ne.symm hk.1) _) hk.2

theorem appended_mem : ∀ (l : List (Nat × Nat)) {p : Plains E} {i j : Nat} {x y : Plain E}, Has p i x → Has p j y → (i, j) ∈ l →
    (l.map (·.1)).Nodup → (∀ ij ∈ l, ij.2 ∉ l.map (·.1)) → Has (appended p l) i { x with events := x.events ++ y.events } := by
  intro l
  induction l with
  | nil => intro p i j x y _ _ h; cases h
  | cons ij l ih =>
    intro p i j x y hx hy hm hn hd
    have hn' := List.nodup_cons.1 hn
    have hd' : ∀ jk ∈ l, jk.2 ∉ l.map (·.1) := fun jk hjk hm => hd jk (by simp [hjk]) (by rw [List.map_cons]; exact List.mem_cons_of_mem _ hm)
    rcases List.mem_cons.1 hm with rfl | hm'
    · have := appended_cons p i j l
      rw [this, eventsOf_has hy, change_set hx]
      exact appended_ne l hx.set_self hn'.1
    · have hi : ij.1 ≠ i := by
        rintro rfl
        exact hn'.1 (List.mem_map.2 ⟨_, hm', rfl⟩)
      have hj : ij.1 ≠ j := by
        rintro rfl
        exact hd (i, ij.1) hm (by simp)
      have := appended_cons p ij.1 ij.2 l
      rw [show ((ij.1, ij.2) :: l) = ij :: l from rfl] at this
      rw [this]
      exact ih (change_ne hx hi _) (change_ne hy hj _) hm' hn'.2 hd'

/-! ### Diagrams -/

/-- The pointers of a diagram after some of them were set. -/
def pointers {n : Nat} (f : Fin n → Tree) (off : Nat) (l : List Tree) (k : Fin n) : Tree :=
  if off ≤ (k : Nat) then (l[(k : Nat) - off]?).getD .null else f k

theorem setSub_ok {n off : Nat} (f : Fin n → Tree) {t : Tree} (ht : t ≠ .null) (h : off < n) :
    (Tree.diagram n f).setSub (off : Nat) t = .ok (.diagram n fun k => if (k : Nat) = off then t else f k) := by
  have hf : (fun k : Fin n => if ((k : Nat) : Int) = (off : Int) then t else f k) = fun k : Fin n => if (k : Nat) = off then t else f k := by
    funext k
    by_cases hk : (k : Nat) = off
    · rw [if_pos hk, if_pos (by omega)]
    · rw [if_neg hk, if_neg (by omega)]
  cases t with
  | null => exact absurd rfl ht
  | leaf i => rw [Tree.setSub, if_pos (by omega), ← hf]; exact nofun
  | diagram m s => rw [Tree.setSub, if_pos (by omega), ← hf]; exact nofun

theorem pointers_step {n off : Nat} (f : Fin n → Tree) (t : Tree) (l : List Tree) :
    pointers (fun k : Fin n => if (k : Nat) = off then t else f k) (off + 1) l = pointers f off (t :: l) := by
  funext k
  simp only [pointers]
  by_cases h : off + 1 ≤ (k : Nat)
  · rw [if_pos h, if_pos (by omega), show (k : Nat) - off = ((k : Nat) - (off + 1)) + 1 from by omega, List.getElem?_cons_succ]
  · rw [if_neg h]
    by_cases hk : (k : Nat) = off
    · rw [if_pos hk, if_pos (by omega), hk, Nat.sub_self]
      rfl
    · rw [if_neg hk, if_neg (by omega)]

theorem makeDiagram_loop {n : Nat} : ∀ (subs : List Composite) (off : Nat) (f g h : Fin n → Tree), off + subs.length = n →
    (∀ c ∈ subs, c.publish ≠ .null ∧ c.discrete ≠ .null ∧ c.unrestricted ≠ .null) →
    (subs.zipIdx off).foldlM setSubs (⟨.diagram n f, .diagram n g, .diagram n h⟩ : Composite) =
      .ok ⟨.diagram n (pointers f off (subs.map (·.publish))), .diagram n (pointers g off (subs.map (·.discrete))),
        .diagram n (pointers h off (subs.map (·.unrestricted)))⟩ := by
  intro subs
  induction subs with
  | nil =>
    intro off f g h hn _
    have : ∀ f : Fin n → Tree, pointers f off [] = f := by
      intro f
      funext k
      have := k.2
      rw [List.length_nil] at hn
      rw [pointers, if_neg (by omega)]
    simp only [List.map_nil, this]
    rfl
  | cons c subs ih =>
    intro off f g h hn hc
    obtain ⟨h1, h2, h3⟩ := hc c (by simp)
    rw [List.length_cons] at hn
    rw [List.zipIdx_cons, List.foldlM_cons, setSubs]
    simp only [setSub_ok _ h1 (show off < n by omega), setSub_ok _ h2 (show off < n by omega), setSub_ok _ h3 (show off < n by omega),
      bind, Except.bind, pure, Except.pure]
    rw [ih (off + 1) _ _ _ (by omega) fun d hd => hc d (by simp [hd])]
    simp only [pointers_step, List.map_cons]

end Maliput.EventColl
