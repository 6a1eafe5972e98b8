import Verif.Gpn.UncertainSpec
import Verif.Rot.RpyProps
import Verif.Mth.PoseProps
import Mathlib.Algebra.Order.Floor.Semiring
import Mathlib.Tactic.FieldSimp
import Mathlib.Tactic.Linarith

/-!
# C116: disturbed poses; C117: evaluation of disturbed poses
-/

namespace Simox.Gpn

open Matrix Jac Rot Mth

/-! ## The loops -/

theorem count_next {a e s : ℝ} (hs : 0 < s) (h : a ≤ e) : Dim.count ⟨a, e, s⟩ = Dim.count ⟨a + s, e, s⟩ + 1 := by
  unfold Dim.count
  dsimp only
  rw [if_pos h]
  have hq : (e - (a + s)) / s = (e - a) / s - 1 := by field_simp; ring
  by_cases h2 : a + s ≤ e
  · rw [if_pos h2, hq]
    have h1 : 1 ≤ (e - a) / s := by rw [le_div_iff₀ hs]; linarith
    rw [Nat.floor_sub_one]
    have : 1 ≤ ⌊(e - a) / s⌋₊ := Nat.le_floor (by simpa using h1)
    omega
  · rw [if_neg h2]
    have h1 : (e - a) / s < 1 := by rw [div_lt_one hs]; linarith
    rw [Nat.floor_eq_zero.2 h1]

theorem values_next {a e s : ℝ} (hs : 0 < s) (h : a ≤ e) : Dim.values ⟨a, e, s⟩ = a :: Dim.values ⟨a + s, e, s⟩ := by
  unfold Dim.values
  rw [count_next hs h, List.range_succ_eq_map]
  simp only [List.map_cons, Nat.cast_zero, zero_mul, add_zero, List.map_map]
  congr 1
  apply List.map_congr_left
  intro k _
  simp only [Function.comp]
  push_cast
  ring

theorem values_stop {a e s : ℝ} (h : ¬ a ≤ e) : Dim.values ⟨a, e, s⟩ = [] := by
  simp [Dim.values, Dim.count, h]

theorem nest_unique {ds : List Dim} {acc : List ℝ} {l l' : List (List ℝ)} (h : Nest ds acc l) (h' : Nest ds acc l') : l = l' := by
  induction h generalizing l' with
  | body => cases h'; rfl
  | stop hn => cases h' with
      | stop => rfl
      | next hp => exact absurd hp hn
  | next hp _ _ ih1 ih2 => cases h' with
      | stop hn => exact absurd hp hn
      | next _ h1 h2 => rw [ih1 h1, ih2 h2]

theorem nest_exists : ∀ (ds : List Dim) (acc : List ℝ), (∀ d ∈ ds, 0 < d.step) →
    Nest ds acc ((tuples (ds.map Dim.values)).map (acc ++ ·))
  | [], acc, _ => by simpa [tuples] using Nest.body
  | ⟨a, e, s⟩ :: ds, acc, h => by
      have hs : 0 < s := h ⟨a, e, s⟩ (by simp)
      have hds : ∀ d ∈ ds, 0 < d.step := fun d hd => h d (List.mem_cons_of_mem _ hd)
      have key : ∀ (n : ℕ) (a : ℝ), Dim.count ⟨a, e, s⟩ = n →
          Nest (⟨a, e, s⟩ :: ds) acc ((tuples ((⟨a, e, s⟩ :: ds : List Dim).map Dim.values)).map (acc ++ ·)) := by
        intro n
        induction n with
        | zero =>
            intro a hn
            have ha : ¬ a ≤ e := by
              intro h0; rw [count_next hs h0] at hn; omega
            simp only [List.map_cons, values_stop ha, tuples, List.flatMap_nil, List.map_nil]
            exact Nest.stop ha
        | succ n ih =>
            intro a hn
            have ha : a ≤ e := by
              by_contra h0
              simp [Dim.count, h0] at hn
            have h1 := nest_exists ds (acc ++ [a]) hds
            have h2 := ih (a + s) (by rw [count_next hs ha] at hn; omega)
            have h3 := Nest.next ha h1 h2
            convert h3 using 1
            simp only [List.map_cons, values_next hs ha, tuples, List.flatMap_cons, List.map_append, List.map_map]
            congr 1
            apply List.map_congr_left
            intro t _
            simp
      exact key _ a rfl

theorem nest_steps {ds : List Dim} {acc : List ℝ} {l : List (List ℝ)} (h : Nest ds acc l) :
    (∀ d ∈ ds, d.start ≤ d.stop) → ∀ d ∈ ds, 0 < d.step := by
  induction h with
  | body => intro _ d hd; cases hd
  | stop hn => intro h0; exact absurd (h0 _ List.mem_cons_self) hn
  | @next a e s ds acc l₁ l₂ hp _ _ ih1 ih2 =>
      intro h0 d hd
      have hds : ∀ d ∈ ds, d.start ≤ d.stop := fun d hd => h0 d (List.mem_cons_of_mem _ hd)
      rcases List.mem_cons.1 hd with rfl | hd
      · by_contra hs
        have hs' : s ≤ 0 := not_lt.1 hs
        have := ih2 (fun d' hd' => by
          rcases List.mem_cons.1 hd' with rfl | hd'
          · dsimp only; linarith
          · exact hds d' hd') ⟨a + s, e, s⟩ (by simp)
        exact hs this
      · exact ih1 hds d hd

theorem tuples_length : ∀ ls : List (List ℝ), (tuples ls).length = (ls.map List.length).prod
  | [] => rfl
  | l :: ls => by
      simp only [tuples, List.length_flatMap, List.length_map, List.map_cons, List.prod_cons, tuples_length ls]
      simp

theorem mem_tuples : ∀ (ls : List (List ℝ)) (t : List ℝ), t ∈ tuples ls ↔ List.Forall₂ (fun x l => x ∈ l) t ls
  | [], t => by simp [tuples]
  | l :: ls, t => by
      simp only [tuples, List.mem_flatMap, List.mem_map]
      constructor
      · rintro ⟨a, ha, t', ht', rfl⟩
        exact .cons ha ((mem_tuples ls t').1 ht')
      · intro h
        cases h with
        | cons ha ht => exact ⟨_, ha, _, (mem_tuples ls _).2 ht, rfl⟩

theorem mem_values (d : Dim) (hs : 0 < d.step) (x : ℝ) :
    x ∈ d.values ↔ ∃ k : ℕ, x = d.start + (k : ℝ) * d.step ∧ x ≤ d.stop := by
  unfold Dim.values Dim.count
  simp only [List.mem_map, List.mem_range]
  constructor
  · rintro ⟨k, hk, rfl⟩
    refine ⟨k, rfl, ?_⟩
    by_cases h : d.start ≤ d.stop
    · rw [if_pos h] at hk
      have h1 : k ≤ ⌊(d.stop - d.start) / d.step⌋₊ := by omega
      have h2 := (Nat.le_floor_iff (div_nonneg (by linarith) hs.le)).1 h1
      rw [le_div_iff₀ hs] at h2
      linarith
    · rw [if_neg h] at hk; omega
  · rintro ⟨k, rfl, hk⟩
    have h0 : 0 ≤ (k : ℝ) * d.step := by positivity
    have h : d.start ≤ d.stop := by linarith
    refine ⟨k, ?_, rfl⟩
    rw [if_pos h]
    have : k ≤ ⌊(d.stop - d.start) / d.step⌋₊ := by
      rw [Nat.le_floor_iff (div_nonneg (by linarith) hs.le), le_div_iff₀ hs]
      linarith
    omega

/-! ## C116 -/

/-- **C116 (grid).** If all the steps of the enabled dimensions are positive, `generatePoses` ends, with one
pose for every combination of values `start + k * step` that are not greater than `end`; there are as many
as the product of the numbers of values. -/
theorem C116_grid (c : Config) (O G : M4) (hs : ∀ i, c.enableDimension i = true → 0 < c.stepSize i) :
    ∃ l, c.Generates O G l ∧ (∀ l', c.Generates O G l' → l' = l) ∧
      l = (tuples ((c.dims G).map Dim.values)).map (gridPose O G) ∧
      l.length = ((c.dims G).map Dim.count).prod ∧
      (∀ p, p ∈ l ↔ ∃ t : Fin 6 → ℝ, p = posrpy2eigen4f (ofSix t) * (O * G⁻¹) ∧
        ∀ i, ∃ k : ℕ, t i = (c.dim G i).start + (k : ℝ) * (c.dim G i).step ∧ t i ≤ (c.dim G i).stop) := by
  have hpos : ∀ i, 0 < (c.dim G i).step := by
    intro i
    unfold Config.dim
    dsimp only
    by_cases h : c.enableDimension i = true
    · rw [if_pos h]; exact hs i h
    · rw [if_neg h]; norm_num
  have hpos' : ∀ d ∈ c.dims G, 0 < d.step := by
    intro d hd
    obtain ⟨i, rfl⟩ := List.mem_ofFn.1 hd
    exact hpos i
  have hn := nest_exists (c.dims G) [] hpos'
  simp only [List.nil_append, List.map_id'] at hn
  refine ⟨_, ⟨_, hn, rfl⟩, ?_, rfl, ?_, ?_⟩
  · rintro l' ⟨ts, hts, rfl⟩
    rw [nest_unique hts hn]
  · rw [List.length_map, tuples_length, List.map_map]
    congr 1
    apply List.map_congr_left
    intro d _
    simp [Dim.values]
  · intro p
    simp only [List.mem_map]
    constructor
    · rintro ⟨t, ht, rfl⟩
      refine ⟨ofTuple t, rfl, ?_⟩
      rw [mem_tuples] at ht
      intro i
      have hlen := ht.length_eq
      have hdl : ((c.dims G).map Dim.values).length = 6 := by simp [Config.dims]
      have hit : i.1 < t.length := by rw [hlen, hdl]; exact i.2
      have hg := List.Forall₂.get ht hit (by rw [hdl]; exact i.2)
      have e1 : ofTuple t i = t[i.1] := by
        simp [ofTuple, List.getD_eq_getElem?_getD, List.getElem?_eq_getElem hit]
      rw [← mem_values _ (hpos i), e1]
      simpa only [Config.dims, List.get_eq_getElem, List.getElem_map, List.getElem_ofFn] using hg
    · rintro ⟨t, rfl, ht⟩
      refine ⟨List.ofFn t, ?_, ?_⟩
      · rw [mem_tuples, List.forall₂_iff_get]
        refine ⟨by simp [Config.dims], ?_⟩
        intro i h1 h2
        have hi : i < 6 := by simpa using h1
        have := (mem_values _ (hpos ⟨i, hi⟩) _).2 (ht ⟨i, hi⟩)
        simpa only [Config.dims, List.get_eq_getElem, List.getElem_map, List.getElem_ofFn] using this
      · have e1 : ofTuple (List.ofFn t) = t := by
          funext i
          fin_cases i <;> simp [ofTuple]
        simp only [gridPose]
        rw [e1]

/-- The default configuration has positive steps, and the five values per dimension of its comment. -/
theorem C116_default_count (maxPos maxOri : ℝ) (hp : 0 < maxPos) (ho : 0 < maxOri) (nd : Bool) (O G : M4) :
    ∃ l, (Config.init maxPos maxOri nd 0.5 0.5).Generates O G l ∧ l.length = 5 ^ 6 := by
  have hr : 0 < maxOri * (Real.pi / 180) := by have := Real.pi_pos; positivity
  obtain ⟨l, h1, -, -, h2, -⟩ := C116_grid (Config.init maxPos maxOri nd 0.5 0.5) O G (by
    intro i _
    unfold Config.init
    dsimp only
    split_ifs <;> positivity)
  refine ⟨l, h1, ?_⟩
  rw [h2]
  have h5 : ∀ i, ((Config.init maxPos maxOri nd 0.5 0.5).dim G i).count = 5 := by
    intro i
    have key : ∀ a e : ℝ, 0 < e → Dim.count ⟨a - e, a + e, e * 0.5⟩ = 5 := by
      intro a e he
      unfold Dim.count
      dsimp only
      rw [if_pos (by linarith)]
      have : (a + e - (a - e)) / (e * 0.5) = ((4 : ℕ) : ℝ) := by
        rw [div_eq_iff (by positivity)]; push_cast; ring
      rw [this, Nat.floor_natCast]
    unfold Config.dim Config.init
    dsimp only
    simp only [if_true]
    by_cases hi : i.1 < 3
    · simp only [hi, if_true]; exact key _ _ hp
    · simp only [hi, if_false]; exact key _ _ hr
  have : (List.map Dim.count ((Config.init maxPos maxOri nd 0.5 0.5).dims G)) = List.replicate 6 5 := by
    unfold Config.dims
    rw [List.map_ofFn]
    apply List.eq_replicate_iff.2
    refine ⟨by simp, ?_⟩
    intro x hx
    obtain ⟨i, rfl⟩ := List.mem_ofFn.1 hx
    exact h5 i
  rw [this]
  rfl

/-- **C116 (grid, factors).** For an initialised configuration the poses are those whose position differs from the grasp
centre by `-maxPos`, `-maxPos + stepFactorPos * maxPos` and so on up to `maxPos`, and whose angles differ from it by
`-maxOri`, `-maxOri + stepFactorOri * maxOri` and so on up to `maxOri` (in degrees). -/
theorem C116_factors (maxPos maxOri fp fo : ℝ) (hp : 0 < maxPos) (ho : 0 < maxOri) (hfp : 0 < fp) (hfo : 0 < fo) (nd : Bool) (O G : M4) :
    ∃ l, (Config.init maxPos maxOri nd fp fo).Generates O G l ∧
      l.length = (⌊2 / fp⌋₊ + 1) ^ 3 * (⌊2 / fo⌋₊ + 1) ^ 3 ∧
      ∀ p, p ∈ l ↔ ∃ k : Fin 6 → ℕ, (∀ i : Fin 6, (k i : ℝ) * (if i.1 < 3 then fp else fo) ≤ 2) ∧
        p = posrpy2eigen4f (ofSix fun i => six (eigen4f2rpy G) i +
          (if i.1 < 3 then (-1 + (k i : ℝ) * fp) * maxPos else (-1 + (k i : ℝ) * fo) * (maxOri * (Real.pi / 180)))) * (O * G⁻¹) := by
  have hr : 0 < maxOri * (Real.pi / 180) := by have := Real.pi_pos; positivity
  obtain ⟨l, h1, -, -, h2, h3⟩ := C116_grid (Config.init maxPos maxOri nd fp fo) O G (by
    intro i _
    unfold Config.init
    dsimp only
    split_ifs <;> positivity)
  have hdim : ∀ i : Fin 6, (Config.init maxPos maxOri nd fp fo).dim G i =
      if i.1 < 3 then ⟨six (eigen4f2rpy G) i - maxPos, six (eigen4f2rpy G) i + maxPos, maxPos * fp⟩
      else ⟨six (eigen4f2rpy G) i - maxOri * (Real.pi / 180), six (eigen4f2rpy G) i + maxOri * (Real.pi / 180), maxOri * (Real.pi / 180) * fo⟩ := by
    intro i
    unfold Config.dim Config.init
    dsimp only
    simp only [if_true]
    by_cases hi : i.1 < 3
    · simp only [hi, if_true]
    · simp only [hi, if_false]
  refine ⟨l, h1, ?_, ?_⟩
  · rw [h2]
    have key : ∀ a e f : ℝ, 0 < e → 0 < f → Dim.count ⟨a - e, a + e, e * f⟩ = ⌊2 / f⌋₊ + 1 := by
      intro a e f he hf
      unfold Dim.count
      dsimp only
      rw [if_pos (by linarith), show (a + e - (a - e)) / (e * f) = 2 / f by field_simp; ring]
    unfold Config.dims
    rw [List.map_ofFn]
    have hc : (Dim.count ∘ (Config.init maxPos maxOri nd fp fo).dim G) = fun i : Fin 6 => if i.1 < 3 then ⌊2 / fp⌋₊ + 1 else ⌊2 / fo⌋₊ + 1 := by
      funext i
      rw [Function.comp_apply, hdim i]
      by_cases hi : i.1 < 3
      · rw [if_pos hi, if_pos hi, key _ _ _ hp hfp]
      · rw [if_neg hi, if_neg hi, key _ _ _ hr hfo]
    rw [hc]
    simp [List.ofFn_succ]
    ring
  · intro p
    rw [h3]
    have hcomp : ∀ (i : Fin 6) (x : ℝ) (k : ℕ), (x = ((Config.init maxPos maxOri nd fp fo).dim G i).start + (k : ℝ) * ((Config.init maxPos maxOri nd fp fo).dim G i).step ∧
        x ≤ ((Config.init maxPos maxOri nd fp fo).dim G i).stop) ↔
        ((k : ℝ) * (if i.1 < 3 then fp else fo) ≤ 2 ∧ x = six (eigen4f2rpy G) i +
          (if i.1 < 3 then (-1 + (k : ℝ) * fp) * maxPos else (-1 + (k : ℝ) * fo) * (maxOri * (Real.pi / 180)))) := by
      intro i x k
      rw [hdim i]
      have gen : ∀ a e f : ℝ, 0 < e → ((x = a - e + (k : ℝ) * (e * f) ∧ x ≤ a + e) ↔ ((k : ℝ) * f ≤ 2 ∧ x = a + (-1 + (k : ℝ) * f) * e)) := by
        intro a e f he
        constructor
        · rintro ⟨e1, e2⟩
          refine ⟨?_, by rw [e1]; ring⟩
          by_contra hlt
          push Not at hlt
          nlinarith
        · rintro ⟨e1, e2⟩
          refine ⟨by rw [e2]; ring, ?_⟩
          rw [e2]; nlinarith
      by_cases hi : i.1 < 3
      · simp only [hi, if_true]; exact gen _ _ _ hp
      · simp only [hi, if_false]; exact gen _ _ _ hr
    constructor
    · rintro ⟨t, rfl, ht⟩
      choose k hk using ht
      refine ⟨k, fun i => ((hcomp i _ _).1 (hk i)).1, ?_⟩
      have : t = fun i : Fin 6 => six (eigen4f2rpy G) i +
          (if i.1 < 3 then (-1 + (k i : ℝ) * fp) * maxPos else (-1 + (k i : ℝ) * fo) * (maxOri * (Real.pi / 180))) :=
        funext fun i => ((hcomp i _ _).1 (hk i)).2
      rw [← this]
    · rintro ⟨k, hk, rfl⟩
      exact ⟨_, rfl, fun i => ⟨k i, (hcomp i _ _).2 ⟨hk i, rfl⟩⟩⟩

/-- **C116 (grid, does not end).** With a step that is not positive in an enabled dimension (and extents that are
not negative) `generatePoses` does not end; this is so in particular for a configuration that was initialised
without an uncertainty of the position or of the orientation. -/
theorem C116_grid_ends_false :
    (∀ (c : Config) (O G : M4) (i : Fin 6), c.enableDimension i = true → c.stepSize i ≤ 0 → (∀ j, 0 ≤ c.dimExtends j) →
      ¬ ∃ l, c.Generates O G l) ∧
    (∀ (x : ℝ) (nd : Bool) (a b : ℝ) (O G : M4), 0 ≤ x → (¬ ∃ l, (Config.init 0 x nd a b).Generates O G l) ∧
      ¬ ∃ l, (Config.init x 0 nd a b).Generates O G l) := by
  have main : ∀ (c : Config) (O G : M4) (i : Fin 6), c.enableDimension i = true → c.stepSize i ≤ 0 →
      (∀ j, 0 ≤ c.dimExtends j) → ¬ ∃ l, c.Generates O G l := by
    rintro c O G i hi hs he ⟨l, ts, hn, -⟩
    have hne : ∀ d ∈ c.dims G, d.start ≤ d.stop := by
      intro d hd
      obtain ⟨j, rfl⟩ := List.mem_ofFn.1 hd
      unfold Config.dim
      dsimp only
      have := he j
      split_ifs
      · dsimp only; linarith
      · exact le_refl _
    have := nest_steps hn hne (c.dim G i) (List.mem_ofFn.2 ⟨i, rfl⟩)
    unfold Config.dim at this
    rw [if_pos hi] at this
    exact absurd this (not_lt.2 hs)
  have hr : ∀ x : ℝ, 0 ≤ x → 0 ≤ x * (Real.pi / 180) := fun x hx => by have := Real.pi_pos; positivity
  refine ⟨main, ?_⟩
  intro x nd a b O G hx
  refine ⟨main _ O G 0 rfl ?_ ?_, main _ O G 3 rfl ?_ ?_⟩
  · simp [Config.init]
  · intro j
    unfold Config.init
    dsimp only
    split_ifs
    · exact le_refl _
    · exact hr x hx
  · simp [Config.init]
  · intro j
    unfold Config.init
    dsimp only
    split_ifs
    · exact hx
    · simp

/-- **C116 (random poses).** There are as many as asked for, and each one moves the grasp centre, which is
fixed to the object, to a pose whose six numbers differ from those of the grasp centre by not more than the
configured distance, and not at all in dimensions that are disabled. -/
theorem C116_random (c : Config) (O G : M4) (hO : IsPose O) (hG : IsPose G) (n : ℤ) (r : ℕ → Fin 6 → ℝ)
    (hr : ∀ j i, |r j i| ≤ 1) (hp : 0 ≤ c.posDeltaMM) (ho : 0 ≤ c.oriDeltaDeg) :
    (c.randomPoses O G n r).length = n.toNat ∧
    ∀ p ∈ c.randomPoses O G n r, ∃ t : Fin 6 → ℝ, Carries O G (posrpy2eigen4f (ofSix t)) p ∧
      ∀ i, (c.enableDimension i = false → t i = six (eigen4f2rpy G) i) ∧
        |t i - six (eigen4f2rpy G) i| ≤ if i.1 < 3 then c.posDeltaMM else c.oriDeltaDeg * (Real.pi / 180) := by
  refine ⟨by simp [Config.randomPoses], ?_⟩
  intro p hpm
  simp only [Config.randomPoses, List.mem_map] at hpm
  obtain ⟨j, -, rfl⟩ := hpm
  refine ⟨fun i => six (eigen4f2rpy G) i + r j i * c.dist i, ?_, ?_⟩
  · unfold Carries Config.randomPose
    have h1 := (C77_inverse hO)
    have h2 := (C77_inverse hG)
    rw [Matrix.mul_assoc, Matrix.mul_assoc (invertedPose G), ← Matrix.mul_assoc O, ← h1.2.2.2.2, h1.2.1, Matrix.one_mul,
      h2.1, Matrix.mul_one]
  · intro i
    constructor
    · intro hi
      simp [Config.dist, hi]
    · have h0 : 0 ≤ c.oriDeltaDeg * (Real.pi / 180) := by have := Real.pi_pos; positivity
      rw [add_sub_cancel_left, abs_mul]
      have h1 := hr j i
      have h2 := abs_nonneg (r j i)
      unfold Config.dist
      split_ifs
      · rw [abs_of_nonneg hp]
        calc |r j i| * c.posDeltaMM ≤ 1 * c.posDeltaMM := mul_le_mul_of_nonneg_right h1 hp
          _ = _ := one_mul _
      · rw [abs_of_nonneg h0]
        calc |r j i| * (c.oriDeltaDeg * (Real.pi / 180)) ≤ 1 * (c.oriDeltaDeg * (Real.pi / 180)) :=
              mul_le_mul_of_nonneg_right h1 h0
          _ = _ := one_mul _
      · rw [abs_zero, mul_zero]; exact hp
      · rw [abs_zero, mul_zero]; exact h0

example : IsPose (1 : M4) := by rw [← mkPose_one]; exact isPose_mkPose.2 (one_mem _)

/-- **C116 (undisturbed).** Without a disturbance a random pose is the pose of the object (for a grasp centre
that does not look almost straight up or down, where the angles are not exact). -/
theorem C116_undisturbed (c : Config) (O G : M4) (hG : IsPose G)
    (hs : G 0 0 ^ 2 + G 1 0 ^ 2 = 0 ∨ 1e-20 ≤ G 0 0 ^ 2 + G 1 0 ^ 2) :
    c.randomPose O G 0 = O := by
  have h1 : (ofSix fun i => six (eigen4f2rpy G) i + (0 : Fin 6 → ℝ) i * c.dist i) = eigen4f2rpy G := by
    simp [ofSix, six]
  unfold Config.randomPose
  rw [h1, (C68_to_rpy_and_back G hG).1 hs, ← Matrix.mul_assoc, (C77_inverse hG).2.1, Matrix.one_mul]

/-- **C116 (grid, partial).** The pose of the grid for the grasp centre itself is the pose of the object if the two
poses commute, for example if neither is turned. Missing: other poses, for which it is false
(`C116_grid_center_false`). -/
theorem C116_grid_center_partial (O G : M4) (hG : IsPose G)
    (hs : G 0 0 ^ 2 + G 1 0 ^ 2 = 0 ∨ 1e-20 ≤ G 0 0 ^ 2 + G 1 0 ^ 2) (hc : O * G = G * O) :
    gridPose O G (List.ofFn (six (eigen4f2rpy G))) = O := by
  have h1 : ofSix (ofTuple (List.ofFn (six (eigen4f2rpy G)))) = eigen4f2rpy G := by
    simp [ofSix, ofTuple, six]
  unfold gridPose
  rw [h1, (C68_to_rpy_and_back G hG).1 hs, ← Matrix.mul_assoc, ← hc, Matrix.mul_assoc, ← (C77_inverse hG).2.2.2.2,
    (C77_inverse hG).2.1, Matrix.mul_one]

/-- The half turn around the third axis. -/
def halfTurnZ : M3 := !![-1, 0, 0; 0, -1, 0; 0, 0, 1]

theorem halfTurnZ_mem : halfTurnZ ∈ Matrix.specialOrthogonalGroup (Fin 3) ℝ := by
  rw [Matrix.mem_specialOrthogonalGroup_iff, Matrix.mem_orthogonalGroup_iff']
  constructor
  · ext i j
    fin_cases i <;> fin_cases j <;> simp [halfTurnZ, Matrix.mul_apply, Fin.sum_univ_three]
  · rw [Matrix.det_fin_three]
    simp [halfTurnZ]

theorem halfTurnZ_mulVec (a b c : ℝ) : halfTurnZ *ᵥ ![a, b, c] = ![-a, -b, c] := by
  funext i
  fin_cases i <;> simp [halfTurnZ, vecHead, vecTail]

/-- **C116 (grid, wrong centre).** For an object that is turned, the poses of the grid are not around the pose of the
object: with the contacts around (100, 0, 0) and the object turned by 180 degrees there, the pose for no disturbance
is 200 away from the object. -/
theorem C116_grid_center_false :
    ∃ O G : M4, IsPose O ∧ IsPose G ∧ G = mkPose ![100, 0, 0] 1 ∧ posPart O = ![100, 0, 0] ∧
      posPart (gridPose O G (List.ofFn (six (eigen4f2rpy G)))) = ![300, 0, 0] := by
  refine ⟨mkPose ![100, 0, 0] halfTurnZ, mkPose ![100, 0, 0] 1, isPose_mkPose.2 halfTurnZ_mem, isPose_mkPose.2 (one_mem _), rfl,
    position_mkPose _ _, ?_⟩
  have hG : IsPose (mkPose ![100, 0, 0] 1) := isPose_mkPose.2 (one_mem _)
  have h1 : ofSix (ofTuple (List.ofFn (six (eigen4f2rpy (mkPose ![100, 0, 0] 1))))) = eigen4f2rpy (mkPose ![100, 0, 0] 1) := by
    simp [ofSix, ofTuple, six]
  have h2 : (mkPose ![100, 0, 0] 1) 0 0 = 1 := by simp [mkPose, setOrientation]
  have h3 : (mkPose ![100, 0, 0] 1) 1 0 = 0 := by simp [mkPose, setOrientation]
  unfold gridPose
  rw [h1, (C68_to_rpy_and_back _ hG).1 (.inr (by rw [h2, h3]; norm_num)), ← (C77_inverse hG).2.2.2.2, invertedPose_mkPose,
    mkPose_mul, mkPose_mul]
  change position _ = _
  have h4 : -((1 : M3)ᵀ *ᵥ ![100, 0, 0]) = ![-100, 0, 0] := by simp
  rw [position_mkPose, h4, halfTurnZ_mulVec]
  funext i
  fin_cases i <;> simp <;> norm_num

/-- **C116 (centre of the contacts).** The grasp centre used for contacts is their mean, unturned; without
contacts there are no poses. -/
theorem C116_contacts (c : Config) (O : M4) (points : List V3) (n : ℤ) (r : ℕ → Fin 6 → ℝ) :
    (points = [] → c.randomPosesAt O points n r = [] ∧ ∀ l, c.GeneratesAt O points l ↔ l = []) ∧
    (points ≠ [] → ∃ m : V3, (points.length : ℝ) • m = points.sum ∧
      c.randomPosesAt O points n r = c.randomPoses O (mkPose m 1) n r ∧
      ∀ l, c.GeneratesAt O points l ↔ c.Generates O (mkPose m 1) l) := by
  constructor
  · rintro rfl
    simp [Config.randomPosesAt, Config.GeneratesAt, getMean]
  · intro h
    have hne : (points.length : ℝ) ≠ 0 := by
      simpa using h
    refine ⟨(1 / (points.length : ℝ)) • points.sum, by rw [smul_smul, mul_one_div_cancel hne, one_smul], ?_, ?_⟩
    · simp [Config.randomPosesAt, getMean, h]
    · intro l
      simp [Config.GeneratesAt, getMean, h]

end Simox.Gpn
