import Verif.Hull.Model
import Mathlib.Tactic.Ring
import Mathlib.Tactic.Linarith
import Mathlib.Tactic.LinearCombination
import Mathlib.Tactic.Positivity

/-!
# Lemmas: the chain of a stack
-/

namespace Simox.Hull

open Classical

/-! ## Turns -/

/-- Before or equal. -/
def lexLe (a b : Pt) : Prop := lexLt a b ∨ a = b

theorem lexLt_irrefl (a : Pt) : ¬ lexLt a a := by
  rintro (h | ⟨_, h⟩) <;> exact lt_irrefl _ h

theorem lexLt_trans {a b c : Pt} (h : lexLt a b) (g : lexLt b c) : lexLt a c := by
  rcases h with h | ⟨h1, h2⟩ <;> rcases g with g | ⟨g1, g2⟩
  · left; exact lt_trans h g
  · left; rw [← g1]; exact h
  · left; rw [h1]; exact g
  · right; exact ⟨h1.trans g1, lt_trans h2 g2⟩

theorem lexLt_tri (a b : Pt) : lexLt a b ∨ a = b ∨ lexLt b a := by
  rcases lt_trichotomy a.1 b.1 with h | h | h
  · left; left; exact h
  · rcases lt_trichotomy a.2 b.2 with g | g | g
    · left; right; exact ⟨h, g⟩
    · right; left; exact Prod.ext h g
    · right; right; right; exact ⟨h.symm, g⟩
  · right; right; left; exact h

theorem lexLt_asymm {a b : Pt} (h : lexLt a b) : ¬ lexLt b a := fun g => lexLt_irrefl a (lexLt_trans h g)

theorem lexLe_trans {a b c : Pt} (h : lexLe a b) (g : lexLe b c) : lexLe a c := by
  rcases h with h | rfl
  · rcases g with g | rfl
    · exact Or.inl (lexLt_trans h g)
    · exact Or.inl h
  · exact g

theorem lexLe_fst {a b : Pt} (h : lexLe a b) : a.1 ≤ b.1 := by
  rcases h with (h | ⟨h, _⟩) | rfl
  · exact le_of_lt h
  · exact le_of_eq h
  · exact le_refl _

/-- A direction of the right half plane. -/
def Pos (d : Pt) : Prop := 0 < d.1 ∨ (d.1 = 0 ∧ 0 < d.2)

/-- The cross product. -/
def cross (a b : Pt) : ℝ := a.1 * b.2 - b.1 * a.2

theorem pos_of_lexLt {a b : Pt} (h : lexLt a b) : Pos (b.1 - a.1, b.2 - a.2) := by
  rcases h with h | ⟨h1, h2⟩
  · left; show 0 < b.1 - a.1; linarith
  · right; constructor
    · show b.1 - a.1 = 0; linarith
    · show 0 < b.2 - a.2; linarith

theorem cross_trans {a b c : Pt} (ha : Pos a) (hb : Pos b) (hc : Pos c) (h : 0 ≤ cross a b) (g : 0 ≤ cross b c) :
    0 ≤ cross a c := by
  unfold cross at *
  rcases hb with hb | ⟨hb1, hb2⟩
  · have hc0 : 0 ≤ c.1 := by rcases hc with hc | ⟨hc, _⟩ <;> linarith
    have ha0 : 0 ≤ a.1 := by rcases ha with ha | ⟨ha, _⟩ <;> linarith
    have e : (a.1 * c.2 - c.1 * a.2) * b.1 = (a.1 * b.2 - b.1 * a.2) * c.1 + (b.1 * c.2 - c.1 * b.2) * a.1 := by
      ring
    have : 0 ≤ (a.1 * c.2 - c.1 * a.2) * b.1 := by
      rw [e]; exact add_nonneg (mul_nonneg h hc0) (mul_nonneg g ha0)
    exact nonneg_of_mul_nonneg_left this hb
  · rw [hb1] at g h
    have hc0 : 0 ≤ c.1 := by rcases hc with hc | ⟨hc, _⟩ <;> linarith
    have ha0 : 0 ≤ a.1 := by rcases ha with ha | ⟨ha, _⟩ <;> linarith
    have c1 : c.1 = 0 := by
      have : c.1 * b.2 ≤ 0 := by linarith
      have := nonpos_of_mul_nonpos_left this hb2
      linarith
    rw [c1]
    rcases hc with hc | ⟨_, hc⟩
    · linarith
    · have := mul_nonneg ha0 hc.le
      linarith

theorem cross_trans_pos {a b c : Pt} (ha : Pos a) (hb : Pos b) (hc : Pos c) (h : 0 < cross a b)
    (g : 0 < cross b c) : 0 < cross a c := by
  unfold cross at *
  rcases hb with hb | ⟨hb1, hb2⟩
  · have hc0 : 0 ≤ c.1 := by rcases hc with hc | ⟨hc, _⟩ <;> linarith
    have e : (a.1 * c.2 - c.1 * a.2) * b.1 = (a.1 * b.2 - b.1 * a.2) * c.1 + (b.1 * c.2 - c.1 * b.2) * a.1 := by
      ring
    have ha0 : 0 < a.1 := by
      rcases ha with ha | ⟨ha1, ha2⟩
      · exact ha
      · rw [ha1] at h
        have := mul_pos hb ha2
        linarith
    have : 0 < (a.1 * c.2 - c.1 * a.2) * b.1 := by
      rw [e]; exact add_pos_of_nonneg_of_pos (mul_nonneg h.le hc0) (mul_pos g ha0)
    exact (mul_pos_iff_of_pos_right hb).mp this
  · rw [hb1] at g
    have hc0 : 0 ≤ c.1 := by rcases hc with hc | ⟨hc, _⟩ <;> linarith
    have := mul_nonneg hc0 hb2.le
    linarith

theorem isLeft_cross (a b c : Pt) : isLeft a b c = cross (b.1 - a.1, b.2 - a.2) (c.1 - a.1, c.2 - a.2) := by
  unfold isLeft cross; ring

theorem isLeft_self (a b : Pt) : isLeft a b b = 0 := by unfold isLeft; ring

theorem isLeft_start (a b : Pt) : isLeft a b a = 0 := by unfold isLeft; ring

theorem isLeft_swap (a b c : Pt) : isLeft a b c = - isLeft b a c := by unfold isLeft; ring

theorem isLeft_rot (a b c : Pt) : isLeft a b c = isLeft b c a := by unfold isLeft; ring

/-- A point left of an edge and before its end is left of the next edge. -/
theorem left_next {s t p q : Pt} (h1 : lexLt s t) (h2 : lexLt t p) (h3 : lexLt q t)
    (h4 : 0 < isLeft s t p) (h5 : 0 ≤ isLeft s t q) : 0 ≤ isLeft t p q := by
  have e1 : 0 ≤ cross (t.1 - q.1, t.2 - q.2) (t.1 - s.1, t.2 - s.2) := by
    have : cross (t.1 - q.1, t.2 - q.2) (t.1 - s.1, t.2 - s.2) = isLeft s t q := by
      unfold cross isLeft; ring
    rw [this]; exact h5
  have e2 : 0 ≤ cross (t.1 - s.1, t.2 - s.2) (p.1 - t.1, p.2 - t.2) := by
    have : cross (t.1 - s.1, t.2 - s.2) (p.1 - t.1, p.2 - t.2) = isLeft s t p := by
      unfold cross isLeft; ring
    rw [this]; exact h4.le
  have := cross_trans (pos_of_lexLt h3) (pos_of_lexLt h1) (pos_of_lexLt h2) e1 e2
  have e : cross (t.1 - q.1, t.2 - q.2) (p.1 - t.1, p.2 - t.2) = isLeft t p q := by
    unfold cross isLeft; ring
  rw [← e]; exact this

/-- After popping `t`, points after `s` are left of the new edge. -/
theorem left_popped {s t p q : Pt} (h1 : lexLt s t) (h2 : lexLt s p) (h3 : lexLt s q)
    (h4 : isLeft s t p ≤ 0) (h5 : 0 ≤ isLeft s t q) : 0 ≤ isLeft s p q := by
  rw [isLeft_cross] at *
  refine cross_trans (pos_of_lexLt h2) (pos_of_lexLt h1) (pos_of_lexLt h3) ?_ h5
  have : cross (p.1 - s.1, p.2 - s.2) (t.1 - s.1, t.2 - s.2) =
      - cross (t.1 - s.1, t.2 - s.2) (p.1 - s.1, p.2 - s.2) := by unfold cross; ring
  rw [this]; linarith

/-- A left turn at the end is a left turn for the edge before. -/
theorem left_before {u v t p : Pt} (h1 : lexLt u v) (h2 : lexLt v t) (h3 : lexLt t p)
    (h4 : 0 < isLeft u v t) (h5 : 0 < isLeft v t p) : 0 < isLeft u v p := by
  have e1 : cross (v.1 - u.1, v.2 - u.2) (t.1 - v.1, t.2 - v.2) = isLeft u v t := by unfold cross isLeft; ring
  have e2 : cross (t.1 - v.1, t.2 - v.2) (p.1 - t.1, p.2 - t.2) = isLeft v t p := by unfold cross isLeft; ring
  have := cross_trans_pos (pos_of_lexLt h1) (pos_of_lexLt h2) (pos_of_lexLt h3) (by rw [e1]; exact h4)
    (by rw [e2]; exact h5)
  have e : isLeft u v p = isLeft u v t + cross (v.1 - u.1, v.2 - u.2) (p.1 - t.1, p.2 - t.2) := by
    unfold cross isLeft; ring
  rw [e]; linarith

/-- A point above the line from `b` to `t` is left of every edge that has both on its left. -/
theorem left_above {b t u v q : Pt} (h : b.1 < t.1) (h1 : b.1 ≤ q.1) (h2 : q.1 ≤ t.1) (huv : u.1 ≤ v.1)
    (hb : 0 ≤ isLeft u v b) (ht : 0 ≤ isLeft u v t) (hq : 0 ≤ isLeft b t q) : 0 ≤ isLeft u v q := by
  have e : isLeft u v q * (t.1 - b.1) =
      (t.1 - q.1) * isLeft u v b + (q.1 - b.1) * isLeft u v t + (v.1 - u.1) * isLeft b t q := by
    unfold isLeft; ring
  have : 0 ≤ isLeft u v q * (t.1 - b.1) := by
    rw [e]
    have a1 := mul_nonneg (sub_nonneg.mpr h2) hb
    have a2 := mul_nonneg (sub_nonneg.mpr h1) ht
    have a3 := mul_nonneg (sub_nonneg.mpr huv) hq
    linarith
  exact nonneg_of_mul_nonneg_left this (by linarith)

/-! ## Stacks -/

/-- The edges of a stack (top first): from the lower to the higher entry. -/
def edges : List Pt → List (Pt × Pt)
  | v :: u :: l => (u, v) :: edges (u :: l)
  | _ => []

/-- All turns are to the left. -/
def Turns : List Pt → Prop
  | w :: v :: u :: l => 0 < isLeft u v w ∧ Turns (v :: u :: l)
  | _ => True

/-- The entries are in order. -/
def Sorted (s : List Pt) : Prop := s.Pairwise fun a b => lexLt b a

/-- Pop for the new point `p`. -/
noncomputable def pops (p : Pt) : List Pt → List Pt
  | t :: s :: r => if isLeft s t p > 0 then t :: s :: r else pops p (s :: r)
  | l => l

theorem Turns.tail {a : Pt} {l : List Pt} (h : Turns (a :: l)) : Turns l := by
  match l with
  | [] => trivial
  | [_] => trivial
  | _ :: _ :: _ => exact h.2

theorem edges_cons_subset (a : Pt) (l : List Pt) : edges l ⊆ edges (a :: l) := by
  match l with
  | [] => intro x hx; cases hx
  | b :: l => intro x hx; exact List.mem_cons_of_mem _ hx

theorem edges_mem {l : List Pt} : ∀ {e : Pt × Pt}, e ∈ edges l → e.1 ∈ l ∧ e.2 ∈ l := by
  match l with
  | [] => intro e h; cases h
  | [_] => intro e h; cases h
  | v :: u :: r =>
    intro e h
    have ih := @edges_mem (u :: r)
    simp only [edges, List.mem_cons] at h
    rcases h with rfl | h
    · simp
    · obtain ⟨h1, h2⟩ := ih h
      exact ⟨List.mem_cons_of_mem _ h1, List.mem_cons_of_mem _ h2⟩

theorem edges_lt {l : List Pt} (hs : Sorted l) : ∀ {e : Pt × Pt}, e ∈ edges l → lexLt e.1 e.2 := by
  match l with
  | [] => intro e h; cases h
  | [_] => intro e h; cases h
  | v :: u :: r =>
    intro e h
    have hs' := List.pairwise_cons.mp hs
    have ih := @edges_lt (u :: r) hs'.2
    simp only [edges, List.mem_cons] at h
    rcases h with rfl | h
    · exact hs'.1 u (by simp)
    · exact ih h

/-- The state of the chain that starts at `b` and has seen the points `Q`. -/
structure Inv (b : Pt) (Q : List Pt) (s : List Pt) : Prop where
  ne : s ≠ []
  last : s.getLast? = some b
  sub : s ⊆ Q
  sorted : Sorted s
  turns : Turns s
  left : ∀ e ∈ edges s, ∀ q ∈ Q, 0 ≤ isLeft e.1 e.2 q
  first : ∀ q ∈ Q, lexLe b q
  top : ∀ q ∈ Q, ∀ t, s.head? = some t → lexLe q t

/-- What popping leaves. -/
theorem pops_spec {b p : Pt} {Q : List Pt} (hp : ∀ q ∈ Q, lexLt q p) :
    ∀ (s : List Pt), s ≠ [] → s.getLast? = some b → s ⊆ Q → Sorted s → Turns s →
      (∀ e ∈ edges s, ∀ q ∈ Q, 0 ≤ isLeft e.1 e.2 q) → (∀ q ∈ Q, lexLe b q) →
      (∀ t, s.head? = some t → ∀ q ∈ Q, lexLt t q → 0 ≤ isLeft t p q) →
      ∃ t r, pops p s = t :: r ∧ (t :: r) <:+ s ∧ (∀ q ∈ Q, 0 ≤ isLeft t p q) ∧
        ∀ u l, r = u :: l → 0 < isLeft u t p := by
  intro s
  induction s with
  | nil => intro h; exact absurd rfl h
  | cons t l ih =>
    intro _ hl hsub hs htn he hf ha
    cases l with
    | nil =>
      refine ⟨t, [], rfl, List.suffix_refl _, ?_, by intro u l h; cases h⟩
      intro q hq
      simp only [List.getLast?_singleton, Option.some.injEq] at hl
      subst hl
      rcases hf q hq with h | rfl
      · exact ha t rfl q hq h
      · rw [isLeft_start]
    | cons u r =>
      unfold pops
      have hs' := List.pairwise_cons.mp hs
      have hut : lexLt u t := hs'.1 u (by simp)
      by_cases hc : isLeft u t p > 0
      · rw [if_pos hc]
        refine ⟨t, u :: r, rfl, List.suffix_refl _, ?_, ?_⟩
        · intro q hq
          rcases lexLt_tri q t with h | rfl | h
          · exact left_next hut (hp t (hsub (by simp))) h hc (he (u, t) (by simp [edges]) q hq)
          · rw [isLeft_start]
          · exact ha t rfl q hq h
        · intro u' l' h
          injection h with h1 h2
          subst h1
          exact hc
      · rw [if_neg hc]
        have := ih (by simp) (by rw [List.getLast?_cons_cons] at hl; exact hl)
          (fun x hx => hsub (List.mem_cons_of_mem _ hx)) hs'.2 htn.tail
          (fun e h => he e (edges_cons_subset _ _ h)) hf (by
            intro t' ht' q hq hlt
            simp only [List.head?_cons, Option.some.injEq] at ht'
            subst ht'
            exact left_popped hut (hp _ (hsub (by simp))) hlt (not_lt.mp hc) (he (u, t) (by simp [edges]) q hq))
        obtain ⟨t', r', h1, h2, h3, h4⟩ := this
        exact ⟨t', r', h1, h2.trans (List.suffix_cons _ _), h3, h4⟩

theorem suffix_edges {s' s : List Pt} (h : s' <:+ s) : edges s' ⊆ edges s := by
  induction s with
  | nil => rw [List.suffix_nil.mp h]; exact fun _ hx => hx
  | cons a l ih =>
    rcases List.suffix_cons_iff.mp h with rfl | h
    · exact fun _ hx => hx
    · exact fun _ hx => edges_cons_subset _ _ (ih h hx)

theorem suffix_turns {s' s : List Pt} (h : s' <:+ s) (ht : Turns s) : Turns s' := by
  induction s with
  | nil => rw [List.suffix_nil.mp h]; trivial
  | cons a l ih =>
    rcases List.suffix_cons_iff.mp h with rfl | h
    · exact ht
    · exact ih h ht.tail

theorem suffix_last {s' s : List Pt} (h : s' <:+ s) (hne : s' ≠ []) : s'.getLast? = s.getLast? := by
  obtain ⟨t, rfl⟩ := h
  rw [List.getLast?_append]
  cases hx : s'.getLast? with
  | none => exact absurd (List.getLast?_eq_none_iff.mp hx) hne
  | some x => simp

/-- If the new point is left of the top edge, it is left of all edges. -/
theorem left_all {p : Pt} : ∀ {s : List Pt}, Sorted s → Turns s → (∀ q ∈ s, lexLt q p) →
    (∀ v u l, s = v :: u :: l → 0 < isLeft u v p) → ∀ e ∈ edges s, 0 < isLeft e.1 e.2 p := by
  intro s
  induction s with
  | nil => intro _ _ _ _ e h; cases h
  | cons v l ih =>
    intro hs ht hp h0 e he
    cases l with
    | nil => cases he
    | cons u r =>
      have hs' := List.pairwise_cons.mp hs
      simp only [edges, List.mem_cons] at he
      have hv := h0 v u r rfl
      rcases he with rfl | he
      · exact hv
      · refine ih hs'.2 ht.tail (fun q hq => hp q (List.mem_cons_of_mem _ hq)) ?_ e he
        intro v' u' l' h
        injection h with h1 h2
        subst h1
        subst h2
        have hu := List.pairwise_cons.mp hs'.2
        exact left_before (hu.1 u' (by simp)) (hs'.1 _ (by simp)) (hp v (by simp)) ht.1 hv

theorem inv_step {b p : Pt} {Q s : List Pt} (h : Inv b Q s) (hp : ∀ q ∈ Q, lexLt q p) :
    Inv b (p :: Q) (p :: pops p s) := by
  obtain ⟨t, r, e, hsuf, hleft, hturn⟩ := pops_spec hp s h.ne h.last h.sub h.sorted h.turns h.left h.first (by
    intro t ht q hq hlt
    rcases h.top q hq t ht with g | rfl
    · exact absurd hlt (lexLt_asymm g)
    · exact absurd hlt (lexLt_irrefl _))
  rw [e]
  have hsort : Sorted (t :: r) := h.sorted.sublist hsuf.sublist
  have hsub : (t :: r) ⊆ Q := fun x hx => h.sub (hsuf.subset hx)
  refine ⟨by simp, ?_, ?_, ?_, ?_, ?_, ?_, ?_⟩
  · rw [List.getLast?_cons_cons, suffix_last hsuf (by simp), h.last]
  · intro x hx
    rcases List.mem_cons.mp hx with rfl | hx
    · simp
    · exact List.mem_cons_of_mem _ (hsub hx)
  · exact List.pairwise_cons.mpr ⟨fun q hq => hp q (hsub hq), hsort⟩
  · cases r with
    | nil => trivial
    | cons u l => exact ⟨hturn u l rfl, suffix_turns hsuf h.turns⟩
  · intro e' he' q hq
    simp only [edges, List.mem_cons] at he'
    rcases he' with rfl | he'
    · rcases List.mem_cons.mp hq with rfl | hq
      · rw [isLeft_self]
      · exact hleft q hq
    · rcases List.mem_cons.mp hq with rfl | hq
      · refine (left_all hsort (suffix_turns hsuf h.turns) (fun x hx => hp x (hsub hx)) ?_ e' he').le
        intro v u l hh
        injection hh with h1 h2
        subst h1
        exact hturn u l h2
      · exact h.left e' (suffix_edges hsuf he') q hq
  · intro q hq
    rcases List.mem_cons.mp hq with rfl | hq
    · have hb : b ∈ Q := h.sub (List.mem_of_getLast? h.last)
      exact Or.inl (hp b hb)
    · exact h.first q hq
  · intro q hq t' ht'
    simp only [List.head?_cons, Option.some.injEq] at ht'
    subst ht'
    rcases List.mem_cons.mp hq with rfl | hq
    · exact Or.inr rfl
    · exact Or.inl (hp q hq)

theorem inv_init (b : Pt) : Inv b [b] [b] := by
  refine ⟨by simp, rfl, by simp, by simp [Sorted], trivial, ?_, ?_, ?_⟩
  · intro e he; cases he
  · intro q hq; rw [List.mem_singleton.mp hq]; exact Or.inr rfl
  · intro q hq t ht
    simp only [List.head?_cons, Option.some.injEq] at ht
    rw [List.mem_singleton.mp hq, ht]
    exact Or.inr rfl

/-- The chain built from a list of points. -/
noncomputable def build (s : List Pt) (l : List Pt) : List Pt := l.foldl (fun s p => p :: pops p s) s

theorem inv_build {b : Pt} : ∀ (l Q s : List Pt), Inv b Q s → l.Pairwise lexLt →
    (∀ q ∈ Q, ∀ p ∈ l, lexLt q p) → Inv b (l.reverse ++ Q) (build s l) := by
  intro l
  induction l with
  | nil => intro Q s h _ _; exact h
  | cons p l ih =>
    intro Q s h hl hq
    have hl' := List.pairwise_cons.mp hl
    have := ih (p :: Q) (p :: pops p s) (inv_step h fun q hq' => hq q hq' p (by simp)) hl'.2 (by
      intro q hq' x hx
      rcases List.mem_cons.mp hq' with rfl | hq'
      · exact hl'.1 x hx
      · exact hq q hq' x (List.mem_cons_of_mem _ hx))
    simpa [build, List.foldl_cons, List.reverse_cons, List.append_assoc] using this

end Simox.Hull
