import Mathlib.Algebra.Order.Archimedean.Basic
import Mathlib.Data.Rat.Floor
import Mathlib.Tactic.NormNum
import Verif.Hst.Lemmas

/-!
# Histograms: properties
-/

set_option linter.unusedSectionVars false

namespace Simox.Hst

section
variable {K : Type} [Field K] [LinearOrder K] [IsStrictOrderedRing K] [FloorSemiring K]

/-- If all values are within the limits, every bin has as many points as there are values in its interval. -/
theorem C155_bins_partial {data : List K} {min max : K} {n : ℕ} (hlt : min < max) (h0 : 0 < n) (h1 : n < 2 ^ 64) (hd : ∀ v ∈ data, min ≤ v ∧ v ≤ max) :
    ∃ h, Histogram.ofLimits data min max n = some h ∧ h.bins.length = n ∧ ∀ i < n, h.bins[i]? = some (data.countP fun v => decide (InBin min max n i v)) := by
  have key : ∀ (vs : List K) (h : Histogram K), h.min = min → h.max = max → h.bins.length = n → (∀ v ∈ vs, min ≤ v ∧ v ≤ max) →
      ∃ h', h.insertAll vs = some h' ∧ h'.bins.length = n ∧ ∀ i < n, h'.bins[i]? = h.bins[i]?.map (· + vs.countP fun v => decide (InBin min max n i v)) := by
    intro vs
    induction vs with
    | nil =>
      intro h _ _ hl _
      refine ⟨h, rfl, hl, fun i hi => ?_⟩
      simp
    | cons v vs ih =>
      rintro h rfl rfl rfl hv
      obtain ⟨i, hi, e, hb⟩ := valueToIndex_bin hlt h0 h1 (hv v (by simp)).1 (hv v (by simp)).2
      have hins : h.insert v = some { h with bins := h.bins.modify i (· + 1) } := by
        unfold Histogram.insert
        rw [e]
        simp only
        rw [if_pos hi]
      obtain ⟨h', e', l', b'⟩ := ih { h with bins := h.bins.modify i (· + 1) } rfl rfl (List.length_modify ..) fun w hw => hv w (List.mem_cons_of_mem _ hw)
      refine ⟨h', by rw [Histogram.insertAll, hins]; exact e', l', fun j hj => ?_⟩
      rw [b' j hj, List.countP_cons]
      have hdj : decide (InBin h.min h.max h.bins.length j v) = decide (j = i) := decide_eq_decide.2 (hb j hj)
      rw [hdj, List.getElem?_modify, List.getElem?_eq_getElem hj]
      simp only [Option.map_some, Option.map_eq_map, Option.some.injEq]
      by_cases hji : i = j
      · subst hji
        simp
        omega
      · rw [if_neg hji]
        simp [Ne.symm hji]
  obtain ⟨h', e, l, b⟩ := key data ⟨min, max, List.replicate n 0⟩ rfl rfl (List.length_replicate ..) hd
  refine ⟨h', e, l, fun i hi => ?_⟩
  rw [b i hi, List.getElem?_replicate, if_pos hi]
  simp

/-- Whatever is put in, unless it is undefined, the points of all bins are as many as the values, and limits and number of bins stay. -/
theorem C155_total {h h' : Histogram K} {vs : List K} (e : h.insertAll vs = some h') : h'.bins.sum = h.bins.sum + vs.length ∧ h'.min = h.min ∧ h'.max = h.max ∧ h'.bins.length = h.bins.length := by
  obtain ⟨a, b, c, d⟩ := insertAll_some vs e
  exact ⟨d, a, b, c⟩

/-- A histogram of data that are not all equal has the least and the largest of them as limits, and a place for all of them. -/
theorem C155_data_partial {data : List K} {n : ℕ} {a b : K} (ha : a ∈ data) (hb : b ∈ data) (hab : a ≠ b) (h0 : 0 < n) (h1 : n < 2 ^ 64) :
    ∃ h, Histogram.ofData data n = some h ∧ h.min ∈ data ∧ h.max ∈ data ∧ (∀ v ∈ data, h.min ≤ v ∧ v ≤ h.max) ∧ h.bins.length = n ∧ h.bins.sum = data.length ∧
      ∀ i < n, h.bins[i]? = some (data.countP fun v => decide (InBin h.min h.max n i v)) := by
  cases data with
  | nil => simp at ha
  | cons d ds =>
    obtain ⟨r, hr⟩ : ∃ r, r = (d :: ds).foldl (fun m x => (Min.min m.1 x, Max.max m.2 x)) (d, d) := ⟨_, rfl⟩
    obtain ⟨_, _, c, e, f⟩ := limits_spec d (d :: ds) (d, d) le_rfl r hr.symm
    have hmin : r.1 ∈ d :: ds := by
      rcases e with e | e
      · rw [e]; simp
      · exact e
    have hmax : r.2 ∈ d :: ds := by
      rcases f with f | f
      · rw [f]; simp
      · exact f
    have hlt : r.1 < r.2 := by
      rcases lt_or_gt_of_ne hab with h | h
      · exact lt_of_le_of_lt (c a ha).1 (lt_of_lt_of_le h (c b hb).2)
      · exact lt_of_le_of_lt (c b hb).1 (lt_of_lt_of_le h (c a ha).2)
    obtain ⟨h, e1, l, b1⟩ := C155_bins_partial (data := d :: ds) hlt h0 h1 c
    have ht := C155_total e1
    refine ⟨h, ?_, ?_, ?_, ?_, l, ?_, ?_⟩
    · have hl : limits (d :: ds) = some r := by rw [hr]; rfl
      unfold Histogram.ofData
      rw [hl]
      exact e1
    · rw [ht.2.1]; exact hmin
    · rw [ht.2.2.1]; exact hmax
    · rw [ht.2.1, ht.2.2.1]; exact c
    · rw [ht.1]
      simp [Histogram.resetBins]
    · rw [ht.2.1, ht.2.2.1]
      exact b1

/-- The first value of a bin is in this bin. -/
theorem C156_edges {h : Histogram K} (hlt : h.min < h.max) (h1 : h.bins.length < 2 ^ 64) {i : ℕ} (hi : i < h.bins.length) :
    h.indexToValue i = edge h.min h.max h.bins.length i ∧ h.valueToIndex (h.indexToValue i) = some i := by
  have h0 : 0 < h.bins.length := by omega
  have hn : (0 : K) < h.bins.length := by exact_mod_cast h0
  have he : ∀ i : ℕ, h.indexToValue i = edge h.min h.max h.bins.length i := by
    intro i
    unfold Histogram.indexToValue edge
    ring
  have hd : 0 < h.max - h.min := by linarith
  have hid : (i : K) / h.bins.length ≤ 1 := by
    rw [div_le_one hn]
    exact_mod_cast hi.le
  refine ⟨he i, ?_⟩
  have hv : h.min ≤ h.indexToValue i := by
    unfold Histogram.indexToValue
    have := mul_nonneg (div_nonneg (Nat.cast_nonneg (α := K) i) hn.le) hd.le
    linarith
  have hv' : h.indexToValue i ≤ h.max := by
    unfold Histogram.indexToValue
    have := mul_le_mul_of_nonneg_right hid hd.le
    linarith
  obtain ⟨j, hj, e, hb⟩ := valueToIndex_bin hlt h0 h1 hv hv'
  rw [e]
  have : i = j := by
    rw [← hb i hi]
    refine ⟨(he i).ge, .inl ?_⟩
    rw [he]
    unfold edge
    have h2 : (h.max - h.min) * (i : K) / h.bins.length < (h.max - h.min) * ((i + 1 : ℕ) : K) / h.bins.length := by
      rw [div_lt_div_iff_of_pos_right hn]
      refine mul_lt_mul_of_pos_left ?_ hd
      push_cast
      linarith
    linarith
  rw [this]

/-- The bin with the most points is the first one no other has more points than, and the one with the fewest the first one no other has fewer than. -/
theorem C156_extremes {h : Histogram K} (hb : h.bins ≠ []) :
    (∃ y, h.bins[h.maxBinIndex]? = some y ∧ ∀ (j z : ℕ), h.bins[j]? = some z → z ≤ y ∧ (j < h.maxBinIndex → z < y)) ∧
    (∃ y, h.bins[h.minBinIndex]? = some y ∧ ∀ (j z : ℕ), h.bins[j]? = some z → y ≤ z ∧ (j < h.minBinIndex → y < z)) := by
  constructor
  · obtain ⟨y, e, hy⟩ := minElement_spec (less := fun a b => decide (b < a)) (by simp; omega) (by simp; omega) (by simp) hb
    exact ⟨y, e, fun j z hz => by simpa [Histogram.maxBinIndex] using hy j z hz⟩
  · obtain ⟨y, e, hy⟩ := minElement_spec (less := fun a b => decide (a < b)) (by simp; omega) (by simp; omega) (by simp) hb
    exact ⟨y, e, fun j z hz => by simpa [Histogram.minBinIndex] using hy j z hz⟩

theorem subWrap_large {m n s : ℕ} (hm : m = 2 ^ 64) (h1 : 0 < s) (h2 : n + s < m) : n < subWrap 0 s := by
  unfold subWrap
  rw [← hm, Nat.zero_add, Nat.mod_eq_of_lt (by omega)]
  omega

/-- The filter reads in front of the first bin: it is undefined for every histogram with bins and every neighbourhood that is not empty, also the default one. -/
theorem C156_median_false {h : Histogram K} (hb : h.bins ≠ []) {size : ℕ} (hs : 0 < size) (hl : h.bins.length + size < 2 ^ 64) : h.applyMedianFilter size = none := by
  have hm : median h.bins size 0 = none := by
    unfold median
    have h1 : h.bins.length < subWrap 0 size := subWrap_large rfl hs hl
    have h2 : Nat.min ((0 + size + 1) % 2 ^ 64) h.bins.length ≤ h.bins.length := Nat.min_le_right _ _
    have h3 : Nat.max (subWrap 0 size) 0 = subWrap 0 size := Nat.max_zero _
    simp only
    rw [if_neg]
    rw [h3]
    omega
  unfold Histogram.applyMedianFilter
  obtain ⟨n, hn⟩ : ∃ n, h.bins.length = n + 1 := Nat.exists_eq_succ_of_ne_zero fun e => hb (List.length_eq_zero_iff.1 e)
  rw [hn, List.range_succ_eq_map, List.mapM_cons, hm]
  rfl

/-- With an empty neighbourhood the filter changes nothing. -/
theorem C156_median_partial {h : Histogram K} (hl : h.bins.length < 2 ^ 64) : h.applyMedianFilter 0 = some h := by
  have hm : ∀ i < h.bins.length, median h.bins 0 i = h.bins[i]? := by
    intro i hi
    have h1 : subWrap i 0 = i := by
      have : ∀ m : ℕ, m = 2 ^ 64 → i < m → subWrap i 0 = i := by
        intro m hm hi
        unfold subWrap
        rw [← hm, Nat.sub_zero, Nat.add_mod_right, Nat.mod_eq_of_lt hi]
      exact this _ rfl (by omega)
    have h2 : (i + 0 + 1) % 2 ^ 64 = i + 1 := by
      have : ∀ m : ℕ, i + 1 < m → (i + 0 + 1) % m = i + 1 := fun m hm => Nat.mod_eq_of_lt hm
      exact this _ (by omega)
    have h3 : Nat.min (i + 1) h.bins.length = i + 1 := Nat.min_eq_left (by omega)
    have h4 : Nat.max i 0 = i := Nat.max_zero _
    unfold median
    simp only
    rw [h1, h2, h3, h4, if_pos (by omega), show i + 1 - i = 1 by omega]
    have : (h.bins.drop i).take 1 = [h.bins[i]] := by rw [List.drop_eq_getElem_cons hi]; rfl
    rw [this]
    simp [hi]
  have hr : ∀ (k : ℕ) (l : List ℕ), (∀ i < l.length, median h.bins 0 (k + i) = l[i]?) → (List.range' k l.length).mapM (median h.bins 0) = some l := by
    intro k l
    induction l generalizing k with
    | nil => exact fun _ => rfl
    | cons a l ih =>
      intro hi
      have h0 := hi 0 (by simp)
      rw [Nat.add_zero, List.getElem?_cons_zero] at h0
      have := ih (k + 1) fun i hl => by
        have := hi (i + 1) (by simpa using hl)
        rw [List.getElem?_cons_succ] at this
        rw [← this, show k + 1 + i = k + (i + 1) by omega]
      rw [List.length_cons, List.range'_succ, List.mapM_cons, h0, this]
      rfl
  unfold Histogram.applyMedianFilter
  rw [List.range_eq_range', hr 0 h.bins (fun i hi => by rw [Nat.zero_add]; exact hm i hi)]
  rfl

/-- Data that are all equal, and no data at all, are undefined. -/
theorem C155_data_false (d : K) (k n : ℕ) : Histogram.ofData (List.replicate (k + 1) d) n = none ∧ Histogram.ofData ([] : List K) n = none := by
  refine ⟨?_, rfl⟩
  have hl : limits (List.replicate (k + 1) d) = some (d, d) := by
    have : ∀ k, (List.replicate k d).foldl (fun m x => (Min.min m.1 x, Max.max m.2 x)) (d, d) = (d, d) := by
      intro k
      induction k with
      | zero => rfl
      | succ k ih => rw [List.replicate_succ, List.foldl_cons]; simpa using ih
    have e : ∀ k, limits (List.replicate (k + 1) d) = some ((List.replicate (k + 1) d).foldl (fun m x => (Min.min m.1 x, Max.max m.2 x)) (d, d)) := by
      intro k
      rw [List.replicate_succ]
      rfl
    rw [e, this]
  unfold Histogram.ofData
  rw [hl]
  simp [Histogram.ofLimits, Histogram.resetBins, List.replicate_succ, Histogram.insertAll, Histogram.insert, Histogram.valueToIndex]

end

/-! Examples, with rational numbers. -/

/-- The hypotheses of `C155_bins_partial` and `C155_data_partial` hold for some data. -/
example : (∀ v ∈ [(1 : ℚ) / 2, 3, 2, 3], 0 ≤ v ∧ v ≤ 3) ∧ (3 : ℚ) ≠ 2 ∧ ((Histogram.ofLimits [(1 : ℚ) / 2, 3, 2, 3] 0 3 3).map fun h => h.bins) = some [1, 0, 3] := by
  refine ⟨by norm_num, by norm_num, by decide +kernel⟩

/-- Values below the lower limit are undefined, although values above the upper one are put into the last bin. -/
theorem C155_below_false : Histogram.ofLimits [(-1 : ℚ)] 0 3 3 = none ∧ ((Histogram.ofLimits [(7 : ℚ)] 0 3 3).map fun h => h.bins) = some [0, 0, 1] := by
  constructor
  · unfold Histogram.ofLimits Histogram.insertAll Histogram.insert Histogram.valueToIndex
    norm_num [Histogram.resetBins]
  · decide +kernel

/-- The value of the bin with the fewest points is that of the bin with the most. -/
theorem C156_least_false : ∃ h : Histogram ℚ, h.min < h.max ∧ h.minBinIndex = 1 ∧ h.minBinValue = h.indexToValue 2 ∧ h.indexToValue 1 ≠ h.indexToValue 2 := by
  refine ⟨⟨0, 3, [1, 0, 3]⟩, by norm_num, by decide, rfl, by norm_num [Histogram.indexToValue]⟩

/-- The value of a bin is its lower end, and not its centre as the header says. -/
theorem C156_centre_false : ∃ h : Histogram ℚ, h.min < h.max ∧ h.indexToValue 1 ≠ (edge h.min h.max h.bins.length 1 + edge h.min h.max h.bins.length 2) / 2 := by
  refine ⟨⟨0, 3, [1, 0, 3]⟩, by norm_num, by norm_num [Histogram.indexToValue, edge]⟩

end Simox.Hst
