import Mathlib.Algebra.BigOperators.Group.List.Basic
import Mathlib.Tactic.Ring
import Mathlib.Tactic.Linarith
import Mathlib.Tactic.FieldSimp
import Mathlib.Tactic.Push
import Verif.Hst.Spec

/-!
# Histograms: lemmas
-/

set_option linter.unusedSectionVars false

namespace Simox.Hst

section
variable {K : Type} [Field K] [LinearOrder K] [IsStrictOrderedRing K] [FloorSemiring K]

theorem lastBin_eq {h : Histogram K} {m : ℕ} (hm : m = 2 ^ 64) (h0 : 0 < h.bins.length) (h1 : h.bins.length < m) : h.lastBin = h.bins.length - 1 := by
  unfold Histogram.lastBin
  rw [← hm]
  obtain ⟨n, hn⟩ : ∃ n, n = h.bins.length := ⟨_, rfl⟩
  rw [← hn] at h0 h1 ⊢
  have : n + m - 1 = (n - 1) + m := by omega
  rw [this, Nat.add_mod_right, Nat.mod_eq_of_lt (by omega)]

theorem sum_modify (l : List ℕ) : ∀ i < l.length, (l.modify i (· + 1)).sum = l.sum + 1 := by
  induction l with
  | nil => intro i h; simp at h
  | cons a l ih =>
    intro i h
    cases i with
    | zero =>
      rw [List.modify_zero_cons, List.sum_cons, List.sum_cons]
      omega
    | succ i =>
      rw [List.modify_succ_cons, List.sum_cons, List.sum_cons, ih i (by simpa using h)]
      omega

theorem insert_some {h h' : Histogram K} {v : K} (e : h.insert v = some h') : ∃ i < h.bins.length, h.valueToIndex v = some i ∧ h' = { h with bins := h.bins.modify i (· + 1) } := by
  unfold Histogram.insert at e
  split at e
  · cases e
  · next i hi =>
    by_cases hl : i < h.bins.length
    · rw [if_pos hl] at e
      cases e
      exact ⟨i, hl, hi, rfl⟩
    · rw [if_neg hl] at e
      cases e

theorem insertAll_some (vs : List K) : ∀ {h h' : Histogram K}, h.insertAll vs = some h' → h'.min = h.min ∧ h'.max = h.max ∧ h'.bins.length = h.bins.length ∧ h'.bins.sum = h.bins.sum + vs.length := by
  induction vs with
  | nil =>
    intro h h' e
    cases e
    exact ⟨rfl, rfl, rfl, rfl⟩
  | cons v vs ih =>
    intro h h' e
    rw [Histogram.insertAll] at e
    split at e
    · cases e
    · next h1 e1 =>
      obtain ⟨i, hi, _, rfl⟩ := insert_some e1
      obtain ⟨a, b, c, d⟩ := ih e
      refine ⟨a, b, ?_, ?_⟩
      · rw [c, List.length_modify]
      · rw [d, sum_modify _ i hi, List.length_cons]
        omega

theorem edge_le {min max v : K} {n : ℕ} (hlt : min < max) (hn : 0 < n) (i : ℕ) : edge min max n i ≤ v ↔ (i : K) ≤ (v - min) / (max - min) * n := by
  unfold edge
  have h1 : 0 < max - min := by linarith
  have h2 : (0 : K) < n := by exact_mod_cast hn
  rw [div_mul_eq_mul_div, le_div_iff₀ h1, ← le_sub_iff_add_le', div_le_iff₀ h2]
  rw [mul_comm (max - min) (i : K)]

theorem valueToIndex_bin {h : Histogram K} (hlt : h.min < h.max) (h0 : 0 < h.bins.length) (h1 : h.bins.length < 2 ^ 64) {v : K} (hv : h.min ≤ v) (hv' : v ≤ h.max) :
    ∃ i < h.bins.length, h.valueToIndex v = some i ∧ ∀ j < h.bins.length, InBin h.min h.max h.bins.length j v ↔ j = i := by
  obtain ⟨x, hx⟩ : ∃ x, x = (v - h.min) / (h.max - h.min) * h.bins.length := ⟨_, rfl⟩
  have hd : 0 < h.max - h.min := by linarith
  have hn : (0 : K) < h.bins.length := by exact_mod_cast h0
  have hx0 : 0 ≤ x := by rw [hx]; exact mul_nonneg (div_nonneg (by linarith) hd.le) hn.le
  have hxn : x ≤ h.bins.length := by
    rw [hx]
    have : (v - h.min) / (h.max - h.min) ≤ 1 := by rw [div_le_one hd]; linarith
    calc _ ≤ 1 * (h.bins.length : K) := mul_le_mul_of_nonneg_right this hn.le
      _ = _ := one_mul _
  have hx2 : x < 2 ^ 64 := by
    refine lt_of_le_of_lt hxn ?_
    have : ((h.bins.length : ℕ) : K) < ((2 ^ 64 : ℕ) : K) := by exact_mod_cast h1
    rw [Nat.cast_pow] at this
    exact this
  have hval : h.valueToIndex v = some (Nat.min (h.bins.length - 1) ⌊x⌋₊) := by
    unfold Histogram.valueToIndex
    rw [if_neg (by linarith)]
    simp only
    rw [← hx, if_neg (by push Not; exact ⟨by linarith, hx2⟩), lastBin_eq rfl h0 h1]
    have : ∀ a, Nat.max 0 a = a := fun a => Nat.zero_max a
    rw [this]
  have hfl : ⌊x⌋₊ ≤ h.bins.length := by
    have := Nat.floor_mono hxn
    rwa [Nat.floor_natCast] at this
  refine ⟨Nat.min (h.bins.length - 1) ⌊x⌋₊, lt_of_le_of_lt (Nat.min_le_left _ _) (by omega), hval, ?_⟩
  intro j hj
  have hlow : edge h.min h.max h.bins.length j ≤ v ↔ j ≤ ⌊x⌋₊ := by rw [edge_le hlt h0, ← hx, Nat.le_floor_iff hx0]
  have hup : v < edge h.min h.max h.bins.length (j + 1) ↔ ⌊x⌋₊ < j + 1 := by rw [← not_le, edge_le hlt h0, ← hx, ← Nat.le_floor_iff hx0, not_le]
  unfold InBin
  rw [hlow, hup]
  have hmin : Nat.min (h.bins.length - 1) ⌊x⌋₊ = if ⌊x⌋₊ < h.bins.length then ⌊x⌋₊ else h.bins.length - 1 := by
    change min _ _ = _
    split <;> omega
  rw [hmin]
  split
  · constructor
    · rintro ⟨a, b | ⟨b, _⟩⟩ <;> omega
    · rintro rfl
      exact ⟨le_rfl, .inl (by omega)⟩
  · constructor
    · rintro ⟨a, b | ⟨b, _⟩⟩ <;> omega
    · rintro rfl
      exact ⟨by omega, .inr ⟨by omega, hv'⟩⟩

theorem limits_spec (d : K) : ∀ (ds : List K) (m : K × K), m.1 ≤ m.2 → ∀ r, ds.foldl (fun m x => (Min.min m.1 x, Max.max m.2 x)) m = r →
    r.1 ≤ m.1 ∧ m.2 ≤ r.2 ∧ (∀ x ∈ ds, r.1 ≤ x ∧ x ≤ r.2) ∧ (r.1 = m.1 ∨ r.1 ∈ ds) ∧ (r.2 = m.2 ∨ r.2 ∈ ds) := by
  intro ds
  induction ds with
  | nil =>
    rintro m _ r rfl
    exact ⟨le_rfl, le_rfl, by simp, .inl rfl, .inl rfl⟩
  | cons x ds ih =>
    intro m hm r hr
    rw [List.foldl_cons] at hr
    obtain ⟨a, b, c, e, f⟩ := ih _ (le_trans (min_le_left _ _) (le_trans hm (le_max_left _ _))) r hr
    simp only at a b e f
    refine ⟨a.trans (min_le_left _ _), (le_max_left _ _).trans b, ?_, ?_, ?_⟩
    · intro y hy
      rcases List.mem_cons.1 hy with rfl | hy
      · exact ⟨a.trans (min_le_right _ _), (le_max_right _ _).trans b⟩
      · exact c y hy
    · rcases e with e | e
      · rcases min_choice m.1 x with h | h
        · exact .inl (e.trans h)
        · exact .inr (by rw [e, h]; simp)
      · exact .inr (List.mem_cons_of_mem _ e)
    · rcases f with f | f
      · rcases max_choice m.2 x with h | h
        · exact .inl (f.trans h)
        · exact .inr (by rw [f, h]; simp)
      · exact .inr (List.mem_cons_of_mem _ f)

end

/-- The loop of `std::min_element`. -/
theorem minStep_spec {less : ℕ → ℕ → Bool} (ht : ∀ a b c, less a b = true → less b c = true → less a c = true) (hn : ∀ a b c, less a b = false → less b c = false → less a c = false) (hi : ∀ a, less a a = false) (bs : List ℕ) :
    ∀ (done : List ℕ) (i x : ℕ), done[i]? = some x → (∀ (j y : ℕ), done[j]? = some y → less y x = false ∧ (j < i → less x y = true)) →
    ∃ y, (done ++ bs)[(bs.foldl (minStep less) (i, x, done.length)).1]? = some y ∧
      ∀ (j z : ℕ), (done ++ bs)[j]? = some z → less z y = false ∧ (j < (bs.foldl (minStep less) (i, x, done.length)).1 → less y z = true) := by
  induction bs with
  | nil =>
    intro done i x h1 h2
    rw [List.append_nil]
    exact ⟨x, h1, h2⟩
  | cons b bs ih =>
    intro done i x h1 h2
    rw [List.foldl_cons]
    have hs : done ++ b :: bs = (done ++ [b]) ++ bs := by simp
    have hil : i < done.length := (List.getElem?_eq_some_iff.1 h1).1
    by_cases hb : less b x = true
    · have := ih (done ++ [b]) done.length b (by simp) ?_
      · rw [hs]
        have e : minStep less (i, x, done.length) b = (done.length, b, (done ++ [b]).length) := by simp [minStep, hb]
        rw [e]
        exact this
      · intro j y hj
        rcases Nat.lt_or_ge j done.length with h | h
        · rw [List.getElem?_append_left h] at hj
          have hx := h2 j y hj
          have hby : less b y = true := by
            by_contra hc
            rw [Bool.not_eq_true] at hc
            have := hn b y x hc hx.1
            rw [hb] at this
            cases this
          refine ⟨?_, fun _ => hby⟩
          by_contra hc
          rw [Bool.not_eq_false] at hc
          have := ht b y b hby hc
          rw [hi] at this
          cases this
        · rw [List.getElem?_append_right h] at hj
          have hj0 : j - done.length = 0 := by
            by_contra hc
            rw [List.getElem?_eq_none (by simp; omega)] at hj
            cases hj
          rw [hj0, List.getElem?_cons_zero, Option.some.injEq] at hj
          exact ⟨hj ▸ hi b, fun h' => by omega⟩
    · rw [Bool.not_eq_true] at hb
      have := ih (done ++ [b]) i x (by rw [List.getElem?_append_left hil]; exact h1) ?_
      · rw [hs]
        have e : minStep less (i, x, done.length) b = (i, x, (done ++ [b]).length) := by simp [minStep, hb]
        rw [e]
        exact this
      · intro j y hj
        rcases Nat.lt_or_ge j done.length with h | h
        · rw [List.getElem?_append_left h] at hj
          exact h2 j y hj
        · rw [List.getElem?_append_right h] at hj
          have hj0 : j - done.length = 0 := by
            by_contra hc
            rw [List.getElem?_eq_none (by simp; omega)] at hj
            cases hj
          rw [hj0, List.getElem?_cons_zero, Option.some.injEq] at hj
          exact ⟨hj ▸ hb, fun h' => by omega⟩

theorem minElement_spec {less : ℕ → ℕ → Bool} (ht : ∀ a b c, less a b = true → less b c = true → less a c = true) (hn : ∀ a b c, less a b = false → less b c = false → less a c = false) (hi : ∀ a, less a a = false) {bs : List ℕ}
    (h : bs ≠ []) : ∃ y, bs[minElement less bs]? = some y ∧ ∀ (j z : ℕ), bs[j]? = some z → less z y = false ∧ (j < minElement less bs → less y z = true) := by
  cases bs with
  | nil => exact absurd rfl h
  | cons b bs =>
    refine minStep_spec ht hn hi bs [b] 0 b rfl ?_
    intro j y hj
    cases j with
    | zero =>
      rw [List.getElem?_cons_zero, Option.some.injEq] at hj
      exact ⟨hj ▸ hi b, fun h => absurd h (by omega)⟩
    | succ j => simp at hj

end Simox.Hst
