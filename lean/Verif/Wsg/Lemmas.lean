import Verif.Wsg.Spec
import Mathlib.Tactic.Linarith
import Mathlib.Tactic.FieldSimp
import Mathlib.Tactic.Ring
import Mathlib.Tactic.Positivity

/-!
# Lemmas about the grid of robot positions
-/

namespace Simox.Wsg

variable {G : Type}

theorem toInt_nonneg {x : ℝ} {i : ℤ} (h : 0 < i) : toInt x = i ↔ (i : ℝ) ≤ x ∧ x < i + 1 := by
  unfold toInt
  have hi : (0 : ℝ) < i := by exact_mod_cast h
  split_ifs with hx
  · rw [Int.floor_eq_iff]
  · constructor
    · intro e
      exfalso
      have : ⌈x⌉ ≤ 0 := Int.ceil_le.2 (by push_cast; linarith)
      omega
    · rintro ⟨h1, -⟩
      linarith

theorem toInt_zero {x : ℝ} : toInt x = 0 ↔ -1 < x ∧ x < 1 := by
  unfold toInt
  split_ifs with hx
  · rw [Int.floor_eq_iff]
    push_cast
    constructor
    · rintro ⟨h1, h2⟩; constructor <;> linarith
    · rintro ⟨h1, h2⟩; constructor <;> linarith
  · rw [Int.ceil_eq_iff]
    push_cast
    constructor
    · rintro ⟨h1, h2⟩; constructor <;> linarith
    · rintro ⟨h1, h2⟩; constructor <;> linarith

/-- The cell the code computes. -/
theorem cell_iff {lo e x : ℝ} {n i : ℤ} (hn : 0 < n) (he : 0 < e) (h0 : 0 ≤ i) (h1 : i < n) :
    toInt ((x - lo) / e * n) = i ↔ TakenFor lo e n i x := by
  have hn' : (0 : ℝ) < n := by exact_mod_cast hn
  have key : ∀ t : ℝ, (t ≤ (x - lo) / e * n ↔ lo + t * (e / n) ≤ x) ∧ ((x - lo) / e * n < t ↔ x < lo + t * (e / n)) ∧
      (t < (x - lo) / e * n ↔ lo + t * (e / n) < x) := by
    intro t
    have e1 : (x - lo) / e * n = (x - lo) / (e / n) := by field_simp
    have hp : 0 < e / n := by positivity
    rw [e1]
    refine ⟨?_, ?_, ?_⟩
    · rw [le_div_iff₀ hp]; constructor <;> intro h <;> linarith
    · rw [div_lt_iff₀ hp]; constructor <;> intro h <;> linarith
    · rw [lt_div_iff₀ hp]; constructor <;> intro h <;> linarith
  rcases h0.lt_or_eq with hi | hi
  · rw [toInt_nonneg hi, (key _).1, (key _).2.1]
    unfold TakenFor InCell
    constructor
    · rintro ⟨a, b⟩; exact .inl ⟨h0, h1, a, b⟩
    · rintro (⟨-, -, a, b⟩ | ⟨a, -⟩)
      · exact ⟨a, b⟩
      · omega
  · subst hi
    rw [toInt_zero, (key _).2.2, (key _).2.1]
    unfold TakenFor InCell
    push_cast
    constructor
    · rintro ⟨a, b⟩
      by_cases hx : lo ≤ x
      · exact .inl ⟨trivial, h1, by linarith, by linarith⟩
      · exact .inr ⟨trivial, by linarith, by linarith⟩
    · rintro (⟨-, -, a, b⟩ | ⟨-, a, b⟩)
      · have hp : 0 < e / n := by positivity
        exact ⟨by linarith, by linarith⟩
      · have hp : 0 < e / n := by positivity
        exact ⟨by linarith, by linarith⟩

/-- The number of a cell. -/
theorem pos_inj {n i j a b : ℤ} (hi : 0 ≤ i) (ha : 0 ≤ a) (hj : 0 ≤ j ∧ j < n) (hb : 0 ≤ b ∧ b < n)
    (h : (i * n + j).toNat = (a * n + b).toNat) : i = a ∧ j = b := by
  have hn : 0 < n := by omega
  have h1 : 0 ≤ i * n := mul_nonneg hi hn.le
  have h2 : 0 ≤ a * n := mul_nonneg ha hn.le
  have e : i * n + j = a * n + b := by omega
  have e1 : (i * n + j) / n = i := by rw [add_comm, Int.add_mul_ediv_right _ _ hn.ne', Int.ediv_eq_zero_of_lt hj.1 hj.2]; ring
  have e2 : (a * n + b) / n = a := by rw [add_comm, Int.add_mul_ediv_right _ _ hn.ne', Int.ediv_eq_zero_of_lt hb.1 hb.2]; ring
  have : i = a := by rw [← e1, ← e2, e]
  subst this
  exact ⟨rfl, by omega⟩

theorem pos_lt {n m i j : ℤ} (hi : 0 ≤ i ∧ i < m) (hj : 0 ≤ j ∧ j < n) : (i * n + j).toNat < (m * n).toNat := by
  have hn : 0 < n := by omega
  have h1 : 0 ≤ i * n := mul_nonneg hi.1 hn.le
  have h2 : (i + 1) * n ≤ m * n := mul_le_mul_of_nonneg_right (by omega) hn.le
  have h3 : (i + 1) * n = i * n + n := by ring
  omega

theorem top_append (ns : Notes G) (v : ℤ) (q : Option G) : top (ns ++ [(v, q)]) = max (top ns) v := by
  simp [top, List.foldl_append]

theorem kept_append (ns : Notes G) (v : ℤ) (p : Option G) (q : G) :
    Kept (ns ++ [(v, p)]) q ↔ Kept ns q ∨ (p = some q ∧ (100 ≤ v ∨ top ns ≤ v)) := by
  constructor
  · rintro ⟨b, w, a, e, h⟩
    rcases List.eq_nil_or_concat a with rfl | ⟨a', z, rfl⟩
    · have := List.append_inj' e rfl
      obtain ⟨rfl, e2⟩ := this
      simp at e2
      exact .inr ⟨e2.2, by rw [e2.1]; exact h⟩
    · have e' : ns ++ [(v, p)] = (b ++ (w, some q) :: a') ++ [z] := by simpa using e
      have := List.append_inj' e' rfl
      exact .inl ⟨b, w, a', this.1, h⟩
  · rintro (⟨b, w, a, rfl, h⟩ | ⟨rfl, h⟩)
    · exact ⟨b, w, a ++ [(v, p)], by simp, h⟩
    · exact ⟨ns, v, [], rfl, h⟩

variable [DecidableEq G]

theorem mem_link (l : List G) (p : Option G) (q : G) : q ∈ link l p ↔ q ∈ l ∨ p = some q := by
  cases p with
  | none => simp [link]
  | some r =>
      change q ∈ (if r ∈ l then l else l ++ [r]) ↔ _
      split_ifs with h
      · constructor
        · exact .inl
        · rintro (h' | h')
          · exact h'
          · simp at h'; rw [← h']; exact h
      · simp [eq_comm]

theorem nodup_link (l : List G) (p : Option G) (h : l.Nodup) : (link l p).Nodup := by
  cases p with
  | none => exact h
  | some r =>
      change (if r ∈ l then l else l ++ [r]).Nodup
      split_ifs with h'
      · exact h
      · rw [List.nodup_append]
        refine ⟨h, by simp, ?_⟩
        intro a ha b hb
        simp at hb
        subst hb
        rintro rfl
        exact h' ha

omit [DecidableEq G] in
theorem outside_iff {f : Format} {g : Grid G} {s : Sheet G} (h : Shows f g s) (i j : ℤ) : g.outside i j = true ↔ ¬ f.On i j := by
  unfold Grid.outside Format.On
  rw [h.format.1, h.format.2.1]
  simp only [Bool.or_eq_true, decide_eq_true_eq]
  omega

omit [DecidableEq G] in
theorem note_congr {f : Format} {s : Sheet G} {P Q : ℤ → ℤ → Prop} (h : ∀ i j, f.On i j → (P i j ↔ Q i j)) (v : ℤ) (q : Option G) :
    s.note f P v q = s.note f Q v q := by
  classical
  unfold Sheet.note
  congr 1
  funext i j
  by_cases ho : f.On i j
  · simp [ho, h i j ho]
  · simp [ho]

omit [DecidableEq G] in
theorem note_none {f : Format} {s : Sheet G} {P : ℤ → ℤ → Prop} (h : ∀ i j, f.On i j → ¬ P i j) (v : ℤ) (q : Option G) :
    s.note f P v q = s := by
  classical
  unfold Sheet.note
  have : (fun i j => if f.On i j ∧ P i j then s.notes i j ++ [(v, q)] else s.notes i j) = s.notes := by
    funext i j
    rw [if_neg]
    rintro ⟨a, b⟩
    exact h i j a b
  rw [this]

theorem setCell_shows {f : Format} {g : Grid G} {s : Sheet G} (h : Shows f g s) (i j v : ℤ) (q : Option G) :
    ∃ g', g.setCell i j v q = some g' ∧ Shows f g' (s.note f (fun a b => a = i ∧ b = j) v q) := by
  by_cases ho : f.On i j
  · have hout : ¬ g.outside i j = true := by rw [outside_iff h]; exact not_not.2 ho
    obtain ⟨l, h1, h2, h3, h4⟩ := h.cell i j ho
    have hlen : (i * f.sizeY + j).toNat < (f.sizeX * f.sizeY).toNat := pos_lt ⟨ho.1, ho.2.1⟩ ho.2.2
    have hpos : g.pos i j = (i * f.sizeY + j).toNat := by unfold Grid.pos; rw [h.format.2.1]
    unfold Grid.setCell
    rw [if_neg hout]
    simp only [hpos, h1, h2, Option.bind_eq_bind, Option.bind_some]
    have other : ∀ a b, f.On a b → ¬ (a = i ∧ b = j) → (a * f.sizeY + b).toNat ≠ (i * f.sizeY + j).toNat := by
      intro a b hab hne e
      exact hne (pos_inj hab.1 ho.1 hab.2.2 ho.2.2 e)
    have hself : (s.note f (fun a b => a = i ∧ b = j) v q).notes i j = s.notes i j ++ [(v, q)] := by
      classical
      simp [Sheet.note, ho]
    have hother : ∀ a b, ¬ (a = i ∧ b = j) → (s.note f (fun a b => a = i ∧ b = j) v q).notes a b = s.notes a b := by
      classical
      intro a b hab
      simp only [Sheet.note]
      rw [if_neg (fun x => hab x.2)]
    have hlen1 : (i * f.sizeY + j).toNat < g.data.length := by rw [h.length.1]; exact hlen
    have hlen2 : (i * f.sizeY + j).toNat < g.links.length := by rw [h.length.2]; exact hlen
    by_cases c1 : top (s.notes i j) ≤ v
    · rw [if_pos c1]
      refine ⟨_, rfl, h.posX, h.posY, h.format, h.low, h.high, by simp [h.length], fun a b hab => ?_⟩
      by_cases e : a = i ∧ b = j
      · obtain ⟨rfl, rfl⟩ := e
        refine ⟨link l q, ?_, ?_, nodup_link l q h3, fun r => ?_⟩
        · rw [hself, top_append, max_eq_right c1]
          exact List.getElem?_set_self hlen1
        · exact List.getElem?_set_self hlen2
        · rw [mem_link, h4, hself, kept_append]
          simp [c1]
      · obtain ⟨l', k1, k2, k3, k4⟩ := h.cell a b hab
        refine ⟨l', ?_, ?_, k3, ?_⟩
        · rw [hother a b e, ← k1]
          exact List.getElem?_set_ne (other a b hab e).symm
        · rw [← k2]
          exact List.getElem?_set_ne (other a b hab e).symm
        · rw [hother a b e]; exact k4
    · rw [if_neg c1]
      by_cases c2 : v ≥ 100
      · rw [if_pos c2]
        refine ⟨_, rfl, h.posX, h.posY, h.format, h.low, h.high, by simp [h.length], fun a b hab => ?_⟩
        by_cases e : a = i ∧ b = j
        · obtain ⟨rfl, rfl⟩ := e
          refine ⟨link l q, ?_, ?_, nodup_link l q h3, fun r => ?_⟩
          · rw [hself, top_append, max_eq_left (by omega)]
            exact h1
          · exact List.getElem?_set_self hlen2
          · rw [mem_link, h4, hself, kept_append]
            have : 100 ≤ v := c2
            simp [this]
        · obtain ⟨l', k1, k2, k3, k4⟩ := h.cell a b hab
          refine ⟨l', ?_, ?_, k3, ?_⟩
          · rw [hother a b e]; exact k1
          · rw [← k2]
            exact List.getElem?_set_ne (other a b hab e).symm
          · rw [hother a b e]; exact k4
      · rw [if_neg c2]
        refine ⟨_, rfl, h.posX, h.posY, h.format, h.low, h.high, h.length, fun a b hab => ?_⟩
        by_cases e : a = i ∧ b = j
        · obtain ⟨rfl, rfl⟩ := e
          refine ⟨l, ?_, h2, h3, fun r => ?_⟩
          · rw [hself, top_append, max_eq_left (by omega)]
            exact h1
          · rw [h4, hself, kept_append]
            simp [c1, c2]
        · obtain ⟨l', k1, k2, k3, k4⟩ := h.cell a b hab
          exact ⟨l', by rw [hother a b e]; exact k1, k2, k3, by rw [hother a b e]; exact k4⟩
  · have hout : g.outside i j = true := by rw [outside_iff h]; exact ho
    refine ⟨g, by unfold Grid.setCell; rw [if_pos hout], ?_⟩
    rw [note_none]
    · exact h
    · rintro a b hab ⟨rfl, rfl⟩; exact ho hab

omit [DecidableEq G] in
theorem note_note {f : Format} {s : Sheet G} {P Q : ℤ → ℤ → Prop} (hd : ∀ i j, P i j → Q i j → False) (v : ℤ) (q : Option G) :
    (s.note f P v q).note f Q v q = s.note f (fun i j => P i j ∨ Q i j) v q := by
  classical
  unfold Sheet.note
  congr 1
  funext i j
  by_cases ho : f.On i j <;> by_cases hp : P i j <;> by_cases hq : Q i j <;> simp [ho, hp, hq]
  exact (hd i j hp hq).elim

theorem setCells_shows {f : Format} (v : ℤ) (q : Option G) : ∀ (cs : List (ℤ × ℤ)) (_ : cs.Nodup) {g : Grid G} {s : Sheet G} (_ : Shows f g s),
    ∃ g', Grid.setCells v q cs g = some g' ∧ Shows f g' (s.note f (fun a b => (a, b) ∈ cs) v q)
  | [], _, g, s, h => ⟨g, rfl, by rw [note_none (by simp)]; exact h⟩
  | c :: cs, hnd, g, s, h => by
      obtain ⟨g1, e1, h1⟩ := setCell_shows h c.1 c.2 v q
      obtain ⟨g2, e2, h2⟩ := setCells_shows v q cs (List.nodup_cons.1 hnd).2 h1
      refine ⟨g2, by simp [Grid.setCells, e1, e2], ?_⟩
      rw [note_note] at h2
      · have e : (fun i j => (i = c.1 ∧ j = c.2) ∨ (i, j) ∈ cs) = fun a b => (a, b) ∈ c :: cs := by
          funext a b
          simp [Prod.ext_iff]
        rwa [e] at h2
      · rintro i j ⟨rfl, rfl⟩ hm
        exact (List.nodup_cons.1 hnd).1 hm

omit [DecidableEq G] in
theorem cell_at {f : Format} {g : Grid G} {s : Sheet G} (h : Shows f g s) (x y : ℝ) {i j : ℤ} (ho : f.On i j) :
    (g.cellX x = i ∧ g.cellY y = j) ↔ s.At f x y i j := by
  unfold Grid.cellX Grid.cellY Sheet.At
  rw [h.low.1, h.low.2, h.format.1, h.format.2.1, h.format.2.2.1, h.format.2.2.2,
    cell_iff h.posX.1 h.posX.2 ho.1 ho.2.1, cell_iff h.posY.1 h.posY.2 ho.2.2.1 ho.2.2.2]

theorem taken_on {lo e : ℝ} {n i : ℤ} (hn : 0 < n) {x : ℝ} (h : TakenFor lo e n i x) : 0 ≤ i ∧ i < n := by
  rcases h with ⟨a, b, -⟩ | ⟨rfl, -⟩
  · exact ⟨a, b⟩
  · exact ⟨le_refl _, hn⟩

omit [DecidableEq G] in
theorem at_on {f : Format} {g : Grid G} {s : Sheet G} (h : Shows f g s) {x y : ℝ} {i j : ℤ} (ha : s.At f x y i j) : f.On i j :=
  ⟨(taken_on h.posX.1 ha.1).1, (taken_on h.posX.1 ha.1).2, taken_on h.posY.1 ha.2⟩

theorem setEntry_shows {f : Format} {g : Grid G} {s : Sheet G} (h : Shows f g s) (x y : ℝ) (v : ℤ) (q : Option G) :
    ∃ g', g.setEntry x y v q = some g' ∧ Shows f g' (s.note f (s.At f x y) v q) := by
  obtain ⟨g', e, h'⟩ := setCell_shows h (g.cellX x) (g.cellY y) v q
  refine ⟨g', e, ?_⟩
  rw [note_congr (Q := s.At f x y)] at h'
  · exact h'
  · intro i j ho
    rw [← cell_at h x y ho]
    constructor <;> rintro ⟨a, b⟩ <;> exact ⟨a.symm, b.symm⟩

theorem neighbours_nodup (x y : ℤ) : (neighbours x y).Nodup := by
  unfold neighbours
  simp only [List.nodup_cons, List.mem_cons, Prod.mk.injEq, List.not_mem_nil, or_false, not_or, not_false_eq_true, List.nodup_nil, and_true]
  omega

theorem mem_neighbours (x y a b : ℤ) : (a, b) ∈ neighbours x y ↔ (|a - x| ≤ 1 ∧ |b - y| ≤ 1) ∧ ¬ (a = x ∧ b = y) := by
  unfold neighbours
  simp only [List.mem_cons, Prod.mk.injEq, List.not_mem_nil, or_false, abs_le]
  omega

theorem setAround_shows {f : Format} {g : Grid G} {s : Sheet G} (h : Shows f g s) (x y : ℝ) (v : ℤ) (q : Option G) :
    ∃ g', g.setEntryCheckNeighbors x y v q = some g' ∧ Shows f g' (s.noteAround f x y v q) := by
  unfold Grid.setEntryCheckNeighbors
  dsimp only
  by_cases ho : f.On (g.cellX x) (g.cellY y)
  · have hout : ¬ g.outside (g.cellX x) (g.cellY y) = true := by rw [outside_iff h]; exact not_not.2 ho
    rw [if_neg hout]
    have hat : s.At f x y (g.cellX x) (g.cellY y) := (cell_at h x y ho).1 ⟨rfl, rfl⟩
    have huniq : ∀ i j, s.At f x y i j → i = g.cellX x ∧ j = g.cellY y := fun i j hij =>
      ⟨((cell_at h x y (at_on h hij)).2 hij).1.symm, ((cell_at h x y (at_on h hij)).2 hij).2.symm⟩
    have hP : ∀ a b, (∃ i j, s.At f x y i j ∧ f.Around i j a b) ↔ f.Around (g.cellX x) (g.cellY y) a b := by
      intro a b
      constructor
      · rintro ⟨i, j, hij, ha⟩
        obtain ⟨rfl, rfl⟩ := huniq i j hij
        exact ha
      · exact fun ha => ⟨_, _, hat, ha⟩
    generalize g.cellX x = nx at *
    generalize g.cellY y = ny at *
    obtain ⟨g1, e1, h1⟩ := setCell_shows h nx ny v q
    rw [e1, Option.bind_some]
    unfold Sheet.noteAround
    rw [note_congr (fun a b _ => hP a b)]
    by_cases hb : nx > 0 ∧ nx < g1.sizeX - 1 ∧ ny > 0 ∧ ny < g1.sizeY - 1
    · rw [if_pos hb]
      obtain ⟨g2, e2, h2⟩ := setCells_shows v q (neighbours nx ny) (neighbours_nodup nx ny) h1
      refine ⟨g2, e2, ?_⟩
      rw [note_note] at h2
      · rw [note_congr (Q := fun i j => i = nx ∧ j = ny ∨ (i, j) ∈ neighbours nx ny)]
        · exact h2
        · intro a b _
          rw [h1.format.1, h1.format.2.1] at hb
          rw [mem_neighbours]
          unfold Format.Around
          constructor
          · rintro (hc | ⟨-, -, -, -, hc⟩)
            · exact .inl hc
            · by_cases hs : a = nx ∧ b = ny
              · exact .inl hs
              · exact .inr ⟨hc, hs⟩
          · rintro (hc | ⟨hc, -⟩)
            · exact .inl hc
            · exact .inr ⟨hb.1, hb.2.1, hb.2.2.1, hb.2.2.2, hc⟩
      · rintro i j hs hm
        exact ((mem_neighbours _ _ _ _).1 hm).2 hs
    · rw [if_neg hb]
      refine ⟨g1, rfl, ?_⟩
      rw [note_congr (Q := fun i j => i = nx ∧ j = ny)]
      · exact h1
      · intro a b _
        rw [h1.format.1, h1.format.2.1] at hb
        unfold Format.Around
        constructor
        · rintro (hc | ⟨c1, c2, c3, c4, -⟩)
          · exact hc
          · exact absurd ⟨c1, c2, c3, c4⟩ hb
        · exact .inl
  · have hout : g.outside (g.cellX x) (g.cellY y) = true := by rw [outside_iff h]; exact ho
    rw [if_pos hout]
    refine ⟨g, rfl, ?_⟩
    unfold Sheet.noteAround
    rw [note_none]
    · exact h
    · rintro a b _ ⟨i, j, hij, -⟩
      have := (cell_at h x y (at_on h hij)).2 hij
      rw [this.1, this.2] at ho
      exact ho (at_on h hij)

theorem setEntries_shows {f : Format} (p : M4) (q : Option G) : ∀ (ds : List (M4 × ℤ)) {g : Grid G} {s : Sheet G} (_ : Shows f g s),
    ∃ g', Grid.setEntries p q ds g = some g' ∧
      Shows f g' (ds.foldl (fun s d => s.noteAround f ((p * d.1⁻¹) 0 3) ((p * d.1⁻¹) 1 3) d.2 q) s)
  | [], g, s, h => ⟨g, rfl, h⟩
  | d :: ds, g, s, h => by
      obtain ⟨g1, e1, h1⟩ := setAround_shows h ((p * d.1⁻¹) 0 3) ((p * d.1⁻¹) 1 3) d.2 q
      obtain ⟨g2, e2, h2⟩ := setEntries_shows p q ds h1
      exact ⟨g2, by simp [Grid.setEntries, e1, e2], h2⟩

omit [DecidableEq G] in
theorem empty_shows {f : Format} {g : Grid G} {s : Sheet G} (hX : 0 < f.sizeX ∧ 0 < f.extendX) (hY : 0 < f.sizeY ∧ 0 < f.extendY)
    (hf : g.sizeX = f.sizeX ∧ g.sizeY = f.sizeY ∧ g.extendX = f.extendX ∧ g.extendY = f.extendY)
    (hl : g.minX = s.lowX ∧ g.minY = s.lowY) (hh : g.maxX = s.lowX + f.extendX ∧ g.maxY = s.lowY + f.extendY)
    (hd : g.data = List.replicate (g.sizeX * g.sizeY).toNat 0) (hk : g.links = List.replicate (g.sizeX * g.sizeY).toNat [])
    (hn : ∀ i j, s.notes i j = []) : Shows f g s := by
  refine ⟨hX, hY, hf, hl, hh, by simp [hd, hk, hf.1, hf.2.1], fun i j ho => ⟨[], ?_, ?_, List.nodup_nil, fun q => ?_⟩⟩
  · rw [hd, hn, List.getElem?_replicate, if_pos (by rw [hf.1, hf.2.1]; exact pos_lt ⟨ho.1, ho.2.1⟩ ho.2.2)]
    rfl
  · rw [hk, List.getElem?_replicate, if_pos (by rw [hf.1, hf.2.1]; exact pos_lt ⟨ho.1, ho.2.1⟩ ho.2.2)]
  · rw [hn]
    constructor
    · simp
    · rintro ⟨b, v, a, e, -⟩
      simp at e

theorem step_shows {f : Format} {g : Grid G} {s : Sheet G} (h : Shows f g s) (o : Op G) : ∃ g', g.step o = some g' ∧ Shows f g' (s.step f o) := by
  cases o with
  | setCell i j v q => exact setCell_shows h i j v q
  | setEntry x y v q => exact setEntry_shows h x y v q
  | setEntryCheckNeighbors x y v q => exact setAround_shows h x y v q
  | setEntries p q ds => exact setEntries_shows p q ds h
  | reset => exact ⟨_, rfl, empty_shows h.posX h.posY h.format h.low h.high rfl rfl (fun _ _ => rfl)⟩
  | setGridPosition x y =>
      refine ⟨_, rfl, h.posX, h.posY, h.format, ?_, ?_, h.length, h.cell⟩
      · simp [Grid.setGridPosition, Sheet.step, h.format]
      · simp only [Grid.setGridPosition, Sheet.step, h.format]
        constructor <;> ring

theorem steps_shows {f : Format} : ∀ (os : List (Op G)) {g : Grid G} {s : Sheet G} (_ : Shows f g s),
    ∃ g', g.steps os = some g' ∧ Shows f g' (os.foldl (Sheet.step f) s)
  | [], g, s, h => ⟨g, rfl, h⟩
  | o :: os, g, s, h => by
      obtain ⟨g1, e1, h1⟩ := step_shows h o
      obtain ⟨g2, e2, h2⟩ := steps_shows os h1
      exact ⟨g2, by simp [Grid.steps, e1, e2], h2⟩

/-- The distance of the positions does not change. -/
theorem setEntry_discretize {g g' : Grid G} {x y : ℝ} {v : ℤ} {q : Option G} (e : g.setEntry x y v q = some g') :
    g'.discretizeSize = g.discretizeSize := by
  unfold Grid.setEntry Grid.setCell at e
  by_cases ho : g.outside (g.cellX x) (g.cellY y) = true
  · rw [if_pos ho] at e
    simp only [Option.some.injEq] at e
    rw [e]
  · rw [if_neg ho] at e
    simp only [Option.bind_eq_bind, Option.bind_eq_some_iff] at e
    obtain ⟨d, -, l, -, e⟩ := e
    split_ifs at e <;> (simp only [Option.some.injEq] at e; rw [← e])

end Simox.Wsg
