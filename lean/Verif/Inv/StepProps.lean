import Verif.Inv.Props
import Mathlib.Data.List.Induction

/-!
# Properties of steps towards several goals (C55)
-/

namespace Simox.Inv

open Matrix Spec

/-! ## Lemmas: lists and vectors -/

theorem norm_ofFn {m : Nat} (v : Fin m → ℝ) : euclid (List.ofFn v) = len v := by
  unfold euclid len
  rw [List.map_ofFn, List.sum_ofFn]
  rfl

theorem effect_ofFn {n : Nat} (rows : List (Fin n → ℝ)) (x : Fin n → ℝ) :
    effect rows x = List.ofFn (mat rows *ᵥ x) := by
  refine List.ext_getElem (by simp [effect]) fun i h1 h2 => ?_
  simp [effect, mat, Matrix.mulVec, dotProduct]

theorem norm_effect {n : Nat} (rows : List (Fin n → ℝ)) (x : Fin n → ℝ) :
    euclid (effect rows x) = len (mat rows *ᵥ x) := by rw [effect_ofFn, norm_ofFn]

theorem effect_sub_eq_zero {n : Nat} {rows : List (Fin n → ℝ)} {x y : Fin n → ℝ}
    (h : effect rows x = effect rows y) : mat rows *ᵥ (x - y) = 0 := by
  rw [effect_ofFn, effect_ofFn] at h
  rw [Matrix.mulVec_sub, List.ofFn_injective h, sub_self]

theorem norm_rest {n : Nat} {rows : List (Fin n → ℝ)} {err : List ℝ} (h : rows.length = err.length) (c : ℝ)
    (x : Fin n → ℝ) : euclid (rest rows err c x) =
      len (mat rows *ᵥ x - c • fun i : Fin rows.length => err.getD i 0) := by
  rw [← norm_ofFn]
  congr 1
  refine List.ext_getElem (by simp [rest, h]) fun i h1 h2 => ?_
  have hi : i < err.length := by simp [rest, h] at h1; exact h1
  simp [rest, mat, Matrix.mulVec, dotProduct, hi]

theorem norm_nonneg (l : List ℝ) : 0 ≤ euclid l := Real.sqrt_nonneg _

theorem norm_sublist {l k : List ℝ} (h : l.Sublist k) : euclid l ≤ euclid k := by
  unfold euclid
  refine Real.sqrt_le_sqrt ?_
  induction h with
  | slnil => exact le_refl _
  | cons a _ ih =>
    rw [List.map_cons, List.sum_cons]
    have := sq_nonneg a
    linarith
  | cons_cons a _ ih =>
    rw [List.map_cons, List.sum_cons, List.map_cons, List.sum_cons]
    linarith

theorem mat_zero {n : Nat} {rows : List (Fin n → ℝ)} {x : Fin n → ℝ} :
    mat rows *ᵥ x = 0 ↔ ∀ r ∈ rows, ∑ i, r i * x i = 0 := by
  constructor
  · intro h r hr
    obtain ⟨i, hi, rfl⟩ := List.getElem_of_mem hr
    exact congrFun h ⟨i, hi⟩
  · intro h
    funext i
    exact h _ (List.getElem_mem i.2)

theorem sublist_flatMap {n : Nat} {tasks : List (Task n)} {k : Task n} (hk : k ∈ tasks) :
    k.rows.Sublist (tasks.flatMap Task.rows) := by
  obtain ⟨l1, l2, rfl⟩ := List.append_of_mem hk
  rw [List.flatMap_append, List.flatMap_cons]
  exact (List.sublist_append_left _ _).trans (List.sublist_append_right _ _)

/-! ## Lemmas: the step -/

theorem descend_append (svds : Svds) (method : Method) {n : Nat} (step : ℝ) (ys : List (Task n)) :
    ∀ (xs : List (Task n)) (JA : List (Fin n → ℝ)) (res : Fin n → ℝ),
      descend svds method step JA res (xs ++ ys) =
        descend svds method step (JA ++ xs.flatMap Task.rows) (descend svds method step JA res xs) ys
  | [], JA, res => by simp [descend]
  | t :: xs, JA, res => by
    rw [List.cons_append, descend, descend, descend_append svds method step ys xs]
    rw [List.flatMap_cons, List.append_assoc]

theorem hierarchicalStep_append (svds : Svds) (method : Method) {n : Nat} (pre suf : List (Task n))
    (hne : pre ≠ []) (step : ℝ) (b : Fin n → ℝ)
    (h : hierarchicalStep svds method (pre ++ suf) step = some b) :
    ∃ a, hierarchicalStep svds method pre step = some a ∧
      b = descend svds method step (pre.flatMap Task.rows) a suf ∧
      ∀ t ∈ pre ++ suf, t.ok svds = true := by
  unfold hierarchicalStep at h ⊢
  by_cases hall : (pre ++ suf).all (Task.ok svds) = true
  · rw [if_pos hall] at h
    have hpre : pre.all (Task.ok svds) = true := by
      rw [List.all_append, Bool.and_eq_true] at hall; exact hall.1
    rw [if_pos hpre]
    cases pre with
    | nil => exact absurd rfl hne
    | cons t ts =>
      rw [List.cons_append] at h
      simp only [Option.map_eq_some_iff] at h ⊢
      obtain ⟨X, hX, hb⟩ := h
      refine ⟨_, ⟨X, hX, rfl⟩, ?_, List.all_eq_true.1 hall⟩
      rw [← hb, descend_append, List.flatMap_cons]
  · rw [if_neg hall] at h
    cases h

section
variable {m k n : Nat}

/-- The projection the loop uses. -/
theorem step_facts (svds : Svds) (A : Matrix (Fin m) (Fin n) ℝ) (J : Matrix (Fin k) (Fin n) ℝ) {tol : ℝ}
    (ht : 0 ≤ tol) :
    let P := 1 - pseudoInverse svds A tol * A
    let X := pseudoInverse svds (J * P) tol
    (∀ v, len (A *ᵥ (X *ᵥ v)) ≤ tol * len (X *ᵥ v)) ∧
      (A * pseudoInverse svds A tol * A = A → ∀ v, A *ᵥ (X *ᵥ v) = 0) ∧
      ∀ v z, A *ᵥ z = 0 → len (J *ᵥ (X *ᵥ v) - v) ≤ len (J *ᵥ z - v) + tol * len z := by
  intro P X
  have hN := pseudoInverse_near svds A ht
  have hX := pseudoInverse_near svds (J * P) ht
  have hPt : Pᵀ = P := by
    show (1 - pseudoInverse svds A tol * A)ᵀ = _
    rw [Matrix.transpose_sub, Matrix.transpose_one, hN.xa]
  have hPP : P * P = P := by
    show (1 - pseudoInverse svds A tol * A) * (1 - pseudoInverse svds A tol * A) = _
    rw [Matrix.mul_sub, Matrix.mul_one, Matrix.sub_mul, Matrix.one_mul, hN.xa_idem, sub_self, sub_zero]
  have hPX : P * X = X := by
    have e : X = (X * (J * P))ᵀ * X := by rw [hX.xa, hX.xax]
    have e2 : P * (X * (J * P))ᵀ = (X * (J * P))ᵀ := by
      rw [Matrix.transpose_mul, Matrix.transpose_mul, hPt, ← Matrix.mul_assoc, ← Matrix.mul_assoc, hPP]
    rw [e, ← Matrix.mul_assoc, e2]
  have hPXv : ∀ v, X *ᵥ v = P *ᵥ (X *ᵥ v) := fun v => by rw [Matrix.mulVec_mulVec, hPX]
  have hAP : ∀ u, A *ᵥ (P *ᵥ u) = A *ᵥ u - A *ᵥ (pseudoInverse svds A tol *ᵥ (A *ᵥ u)) := by
    intro u
    show A *ᵥ ((1 - pseudoInverse svds A tol * A) *ᵥ u) = _
    rw [Matrix.sub_mulVec, Matrix.one_mulVec, Matrix.mulVec_sub, ← Matrix.mulVec_mulVec]
  refine ⟨fun v => ?_, fun hA v => ?_, fun v z hz => ?_⟩
  · rw [hPXv v, hAP, ← hPXv v]
    exact hN.axa _
  · rw [hPXv v, hAP, Matrix.mulVec_mulVec (X *ᵥ v) _ A, Matrix.mulVec_mulVec (X *ᵥ v), ← Matrix.mul_assoc,
      hA, sub_self]
  · have hPz : P *ᵥ z = z := by
      show (1 - pseudoInverse svds A tol * A) *ᵥ z = z
      rw [Matrix.sub_mulVec, Matrix.one_mulVec, ← Matrix.mulVec_mulVec, hz, Matrix.mulVec_zero, sub_zero]
    have := hX.least v z
    rw [← Matrix.mulVec_mulVec, ← Matrix.mulVec_mulVec, hPz, ← hPXv v] at this
    exact this

end

theorem tol_nonneg : (0:ℝ) ≤ 1 / 100000 := by norm_num

/-! ## C55 -/

/-- **C55.** `HierarchicalIK::computeStep` throws exactly when a task is not initialized, its error does not
fit its Jacobian, or its provider is to use the singular value decomposition with a weight that is not
positive (without tasks it must not be called). -/
theorem C55_throws (svds : Svds) (method : Method) {n : Nat} (tasks : List (Task n)) (step : ℝ) :
    hierarchicalStep svds method tasks step = none ↔ tasks = [] ∨ ∃ t ∈ tasks, t.init = false ∨
      t.rows.length ≠ t.err.length ∨
      (t.prov.method = .svd ∧ ∃ w, t.prov.weights = some w ∧ ∃ i, w i ≤ 0) := by
  have hok : ∀ t : Task n, t.ok svds = false ↔ t.init = false ∨ t.rows.length ≠ t.err.length ∨
      (t.prov.method = .svd ∧ ∃ w, t.prov.weights = some w ∧ ∃ i, w i ≤ 0) := by
    intro t
    unfold Task.ok
    rw [← C54_throws svds t.prov true (mat t.rows) 0 none]
    cases hi : inverse svds t.prov true (mat t.rows) 0 none <;> cases t.init <;> simp
  unfold hierarchicalStep
  by_cases hall : tasks.all (Task.ok svds) = true
  · rw [if_pos hall]
    have hno : ¬ ∃ t ∈ tasks, t.init = false ∨ t.rows.length ≠ t.err.length ∨
        (t.prov.method = .svd ∧ ∃ w, t.prov.weights = some w ∧ ∃ i, w i ≤ 0) := by
      rintro ⟨t, ht, hb⟩
      have := (hok t).2 hb
      rw [List.all_eq_true.1 hall t ht] at this
      cases this
    cases tasks with
    | nil => simp
    | cons t ts =>
      have h1 : t.ok svds = true := List.all_eq_true.1 hall t (by simp)
      have h2 : (inverse svds t.prov true (mat t.rows) 0 none).isSome = true := by
        unfold Task.ok at h1
        simp only [Bool.and_eq_true] at h1
        exact h1.1.2
      obtain ⟨X, hX⟩ := Option.isSome_iff_exists.1 h2
      simp only [hX, Option.map_some, reduceCtorEq, false_iff]
      rintro (h | h)
      · cases h
      · exact hno h
  · rw [if_neg hall]
    simp only [true_iff]
    right
    rw [List.all_eq_true] at hall
    push Not at hall
    obtain ⟨t, ht, hb⟩ := hall
    exact ⟨t, ht, (hok t).1 (by simpa using hb)⟩

/-- **C55.** `HierarchicalIK::computeStep` with the singular value decomposition (the default): adding a
task at the end changes what the step does for each of the tasks before by at most `10⁻⁵` times the change
of the step. -/
theorem C55_priority (svds : Svds) {n : Nat} (pre : List (Task n)) (hne : pre ≠ []) (t : Task n) (step : ℝ)
    (b : Fin n → ℝ) (h : hierarchicalStep svds .svd (pre ++ [t]) step = some b) :
    ∃ a, hierarchicalStep svds .svd pre step = some a ∧ ∀ k ∈ pre,
      euclid (effect k.rows (b - a)) ≤ 1 / 100000 * len (b - a) := by
  obtain ⟨a, ha, hb, -⟩ := hierarchicalStep_append svds .svd pre [t] hne step b h
  refine ⟨a, ha, fun k hk => ?_⟩
  have e : b - a = pseudoInverse svds (mat t.rows * (1 - pseudoInverse svds (mat (pre.flatMap Task.rows))
      (1 / 100000) * mat (pre.flatMap Task.rows))) (1 / 100000) *ᵥ
        (step • t.errVec - mat t.rows *ᵥ a) := by
    rw [hb, descend, descend, add_sub_cancel_left]
    rfl
  have h1 : euclid (effect k.rows (b - a)) ≤ euclid (effect (pre.flatMap Task.rows) (b - a)) :=
    norm_sublist ((sublist_flatMap hk).map _)
  refine h1.trans ?_
  rw [norm_effect, e]
  exact (step_facts svds _ _ tol_nonneg).1 _

/-- **C55.** Under the same conditions the new task gets what the tasks before leave: among all motions `x`
that do the same for all tasks before, none beats the error that is left of the new task by more than
`10⁻⁵` times the difference of `x` to the step without the new task. -/
theorem C55_best_of_rest (svds : Svds) {n : Nat} (pre : List (Task n)) (hne : pre ≠ []) (t : Task n)
    (step : ℝ) (b : Fin n → ℝ) (h : hierarchicalStep svds .svd (pre ++ [t]) step = some b) :
    ∃ a, hierarchicalStep svds .svd pre step = some a ∧
      ∀ x, (∀ k ∈ pre, effect k.rows x = effect k.rows a) →
        euclid (rest t.rows t.err step b) ≤ euclid (rest t.rows t.err step x) + 1 / 100000 * len (x - a) := by
  obtain ⟨a, ha, hb, hok⟩ := hierarchicalStep_append svds .svd pre [t] hne step b h
  refine ⟨a, ha, fun x hx => ?_⟩
  have hl : t.rows.length = t.err.length := by
    have := hok t (by simp)
    unfold Task.ok at this
    simp only [Bool.and_eq_true, beq_iff_eq] at this
    exact this.2
  have hz : mat (pre.flatMap Task.rows) *ᵥ (x - a) = 0 := by
    rw [mat_zero]
    intro r hr
    obtain ⟨k, hk, hr⟩ := List.mem_flatMap.1 hr
    exact mat_zero.1 (effect_sub_eq_zero (hx k hk)) r hr
  have := (step_facts svds (mat (pre.flatMap Task.rows)) (mat t.rows) tol_nonneg).2.2
    (step • t.errVec - mat t.rows *ᵥ a) (x - a) hz
  have e : b = a + pseudoInverse svds (mat t.rows * (1 - pseudoInverse svds (mat (pre.flatMap Task.rows))
      (1 / 100000) * mat (pre.flatMap Task.rows))) (1 / 100000) *ᵥ
        (step • t.errVec - mat t.rows *ᵥ a) := by
    rw [hb, descend, descend]
    rfl
  rw [norm_rest hl, norm_rest hl]
  have e1 : mat t.rows *ᵥ b - step • t.errVec = mat t.rows *ᵥ (b - a) - (step • t.errVec - mat t.rows *ᵥ a) := by
    rw [Matrix.mulVec_sub]; abel
  have e2 : mat t.rows *ᵥ x - step • t.errVec = mat t.rows *ᵥ (x - a) - (step • t.errVec - mat t.rows *ᵥ a) := by
    rw [Matrix.mulVec_sub]; abel
  change len (mat t.rows *ᵥ b - step • t.errVec) ≤ len (mat t.rows *ᵥ x - step • t.errVec) + _
  rw [e1, e2]
  have e3 : b - a = pseudoInverse svds (mat t.rows * (1 - pseudoInverse svds (mat (pre.flatMap Task.rows))
      (1 / 100000) * mat (pre.flatMap Task.rows))) (1 / 100000) *ᵥ
        (step • t.errVec - mat t.rows *ᵥ a) := by
    conv_lhs => rw [e]
    rw [add_sub_cancel_left]
  rw [e3]
  exact this

/-- **C55.** If the Jacobians of all tasks before, stacked, have no positive singular value below the
tolerance, any number of further tasks leaves what the step does for the tasks before exactly the same. -/
theorem C55_priority_exact (svds : Svds) {n : Nat} (pre : List (Task n)) (hne : pre ≠ []) (step : ℝ) :
    ∀ (suf : List (Task n)) (b : Fin n → ℝ),
      (∀ s, s <+: suf → s ≠ suf → Regular (mat ((pre ++ s).flatMap Task.rows)) (1 / 100000)) →
      hierarchicalStep svds .svd (pre ++ suf) step = some b →
      ∃ a, hierarchicalStep svds .svd pre step = some a ∧ ∀ k ∈ pre, effect k.rows b = effect k.rows a := by
  intro suf
  induction suf using List.reverseRecOn with
  | nil => intro b _ h; exact ⟨b, by simpa using h, fun _ _ => rfl⟩
  | append_singleton suf t ih =>
    intro b hr h
    rw [← List.append_assoc] at h
    have hne' : pre ++ suf ≠ [] := by simp [hne]
    obtain ⟨c, hc, hb, -⟩ := hierarchicalStep_append svds .svd (pre ++ suf) [t] hne' step b h
    obtain ⟨a, ha, hka⟩ := ih c (fun s hs hsne => hr s (hs.trans (List.prefix_append _ _)) (fun e => by
      rw [e] at hs
      have := hs.length_le
      simp at this)) hc
    refine ⟨a, ha, fun k hk => ?_⟩
    rw [← hka k hk]
    have hreg := regular_axa svds _ tol_nonneg (hr suf (List.prefix_append _ _) (fun e => by
      have := congrArg List.length e
      simp at this))
    have e : b - c = pseudoInverse svds (mat t.rows * (1 - pseudoInverse svds
        (mat ((pre ++ suf).flatMap Task.rows)) (1 / 100000) * mat ((pre ++ suf).flatMap Task.rows)))
          (1 / 100000) *ᵥ (step • t.errVec - mat t.rows *ᵥ c) := by
      rw [hb, descend, descend, add_sub_cancel_left]
      rfl
    have h0 : mat ((pre ++ suf).flatMap Task.rows) *ᵥ (b - c) = 0 := by
      rw [e]
      exact (step_facts svds _ _ tol_nonneg).2.1 hreg _
    have h1 : mat k.rows *ᵥ (b - c) = 0 := by
      rw [mat_zero] at h0 ⊢
      exact fun r hr => h0 r ((sublist_flatMap (List.mem_append_left _ hk)).mem hr)
    rw [effect_ofFn, effect_ofFn]
    rw [Matrix.mulVec_sub, sub_eq_zero] at h1
    rw [h1]

/-- **C55.** The first task alone: no motion beats the error that is left by more than `10⁻⁵` times its
weighted length, if its provider uses the singular value decomposition. -/
theorem C55_first (svds : Svds) (method : Method) {n : Nat} (t : Task n) (hm : t.prov.method = .svd)
    (step : ℝ) (a : Fin n → ℝ) (h : hierarchicalStep svds method [t] step = some a) (x : Fin n → ℝ) :
    euclid (rest t.rows t.err step a) ≤ euclid (rest t.rows t.err step x) +
      1 / 100000 * Real.sqrt (cost (t.prov.weights.getD fun _ => 1) x) := by
  have hnone : hierarchicalStep svds method [t] step ≠ none := by rw [h]; simp
  have hnot := (C55_throws svds method [t] step).not.1 hnone
  push Not at hnot
  have h2 := hnot.2 t (by simp)
  have hw : ∀ w, t.prov.weights = some w → ∀ i, 0 < w i := h2.2.2 hm
  obtain ⟨X, hX, hb⟩ := C54_provider_svd svds t.prov hm true (mat t.rows) 0 (le_refl _) none hw
  have ha : a = X *ᵥ (step • t.errVec) := by
    unfold hierarchicalStep at h
    split at h
    · simp only [hX, Option.map_some, Option.some.injEq, descend] at h
      rw [← h, Matrix.mulVec_smul]
    · cases h
  have := hb (step • t.errVec) x
  rw [if_pos rfl] at this
  have hl := h2.2.1
  rw [norm_rest hl, norm_rest hl, ha]
  unfold error at this
  simp only [Option.getD_none, one_mul] at this
  exact this

/-- **C55.** `StackedIK::computeStep` with the singular value decomposition: the sum of the squares of what
is left of the errors of all tasks together is, up to `10⁻⁵` times the length of the other motion, the
least. -/
theorem C55_stacked (svds : Svds) {n : Nat} (tasks : List (Task n)) (step : ℝ) (a : Fin n → ℝ)
    (h : stackedStep svds .svd tasks step = some a) (x : Fin n → ℝ) :
    euclid (tasks.flatMap fun t => rest t.rows t.err step a) ≤
      euclid (tasks.flatMap fun t => rest t.rows t.err step x) + 1 / 100000 * len x := by
  have hflat : ∀ ts : List (Task n), (∀ t ∈ ts, t.rows.length = t.err.length) → ∀ y,
      (ts.flatMap fun t => rest t.rows t.err step y) =
        rest (ts.flatMap Task.rows) (ts.flatMap Task.err) step y ∧
      (ts.flatMap Task.rows).length = (ts.flatMap Task.err).length := by
    intro ts hts y
    induction ts with
    | nil => exact ⟨rfl, rfl⟩
    | cons t ts ih =>
      obtain ⟨h1, h2⟩ := ih (fun s hs => hts s (List.mem_cons_of_mem _ hs))
      have h3 := hts t (by simp)
      constructor
      · rw [List.flatMap_cons, h1, List.flatMap_cons, List.flatMap_cons]
        simp only [rest]
        rw [List.zipWith_append h3]
      · simp [List.flatMap_cons, h3, h2]
  cases tasks with
  | nil => simp [stackedStep] at h
  | cons t ts =>
    unfold stackedStep at h
    simp only at h
    split at h
    · rename_i hall
      have hlen : ∀ s ∈ t :: ts, s.rows.length = s.err.length := by
        intro s hs
        have := List.all_eq_true.1 hall s hs
        unfold stackedOk at this
        simp only [Bool.and_eq_true, beq_iff_eq] at this
        exact this.2
      rw [(hflat _ hlen a).1, (hflat _ hlen x).1, norm_rest (hflat _ hlen a).2,
        norm_rest (hflat _ hlen x).2]
      simp only [Option.some.injEq] at h
      rw [← h, ← Matrix.mulVec_smul]
      exact C54_near_least_error svds _ _ tol_nonneg _ x
    · cases h

/-! ## The other methods do not keep the priorities -/

theorem row1 (c : ℝ) : mat [(fun _ : Fin 1 => c)] = Matrix.of fun _ _ => c := by
  ext i j
  have : i = ⟨0, by simp⟩ := Fin.ext (by simpa using i.2)
  subst this
  rfl

/-- The task to move a single joint by `e`, measured with the factor `c`. -/
def single (c e : ℝ) : Task 1 := ⟨true, [fun _ => c], [e], ⟨.transpose, none, 0⟩⟩

/-- **C55.** With the transposed Jacobian or with damping a task of lower priority does disturb the tasks
before: here the first task is to leave the only joint where it is, and the second one moves it. -/
theorem C55_others_disturb (svds : Svds) (method : Method) (hm : method ≠ .svd) :
    ∃ (k t : Task 1) (a b : Fin 1 → ℝ), hierarchicalStep svds method [k] 1 = some a ∧
      hierarchicalStep svds method [k, t] 1 = some b ∧ effect k.rows a = [0] ∧ effect k.rows b ≠ [0] := by
  let k := single 2 0
  let t := single 1 1
  have hok : ∀ s ∈ [k, t], s.ok svds = true := by
    intro s hs
    unfold Task.ok inverse inverseInternal
    rcases List.mem_cons.1 hs with rfl | hs
    · rfl
    · rw [List.mem_singleton.1 hs]; rfl
  have h1 : ∀ ts : List (Task 1), (∀ s ∈ ts, s ∈ [k, t]) → hierarchicalStep svds method (k :: ts) 1 =
      some (descend svds method 1 k.rows 0 ts) := by
    intro ts hts
    unfold hierarchicalStep
    rw [if_pos]
    · simp only
      have e0 : k.errVec = 0 := by
        funext i
        have : i = ⟨0, by simp [k, single]⟩ := Fin.ext (by have := i.2; simp [k, single] at this; omega)
        subst this
        rfl
      rw [e0]
      simp only [Matrix.mulVec_zero, smul_zero]
      unfold inverse inverseInternal
      rfl
    · rw [List.all_eq_true]
      intro s hs
      rcases List.mem_cons.1 hs with rfl | hs
      · exact hok _ (by simp)
      · exact hok _ (hts s hs)
  refine ⟨k, t, _, _, h1 [] (by simp), h1 [t] (by simp), by simp [descend, effect, k, single], ?_⟩
  -- the step is `x̃ · 1` with the inner inverse `x̃` of the projected Jacobian, which is not zero
  have hval : descend svds method 1 k.rows 0 [t] =
      innerInverse svds method (mat t.rows * (1 - innerInverse svds method (mat k.rows) * mat k.rows)) *ᵥ
        t.errVec := by
    simp [descend]
  rw [hval]
  have hkr : mat k.rows = Matrix.of fun _ _ => 2 := row1 2
  have htr : mat t.rows = Matrix.of fun _ _ => 1 := row1 1
  have hte : t.errVec = fun _ => 1 := by
    funext i
    have : i = ⟨0, by simp [t, single]⟩ := Fin.ext (by have := i.2; simp [t, single] at this; omega)
    subst this
    rfl
  rw [hkr, htr, hte]
  cases method with
  | svd => exact absurd rfl hm
  | transpose =>
    have e1 : (Matrix.of fun (_ : Fin 1) (_ : Fin 1) => (1:ℝ)) *
        (1 - (Matrix.of fun (_ : Fin 1) (_ : Fin 1) => (2:ℝ))ᵀ *
          Matrix.of fun (_ : Fin 1) (_ : Fin 1) => (2:ℝ)) = Matrix.of fun _ _ => -3 := by
      ext i j
      have hi : i = 0 := Subsingleton.elim _ _
      have hj : j = 0 := Subsingleton.elim _ _
      subst hi hj
      simp [Matrix.mul_apply]
      norm_num
    intro hc
    have h0 : effect [fun _ => (2:ℝ)] (((Matrix.of fun (_ : Fin 1) (_ : Fin 1) => (-3:ℝ))ᵀ) *ᵥ
        fun _ => (1:ℝ)) = [0] := by rw [← e1]; exact hc
    simp [effect, Matrix.mulVec, dotProduct] at h0
  | svdDamped =>
    -- entries of the damped inverse of a matrix with one entry
    have hd : ∀ c : ℝ, ∀ i j, pseudoInverseDamped svds (Matrix.of fun (_ : Fin 1) (_ : Fin 1) => c) 10 i j =
        c / (c ^ 2 + 100) := by
      intro c i j
      have h := congrFun (congrFun (damped_normal svds (Matrix.of fun (_ : Fin 1) (_ : Fin 1) => c)
        (by norm_num : (10:ℝ) ≠ 0)) i) j
      have hi : i = 0 := Subsingleton.elim _ _
      have hj : j = 0 := Subsingleton.elim _ _
      subst hi hj
      simp [Matrix.mul_apply] at h
      have : c ^ 2 + 100 ≠ 0 := by positivity
      rw [eq_div_iff this]
      linarith
    have e1 : (Matrix.of fun (_ : Fin 1) (_ : Fin 1) => (1:ℝ)) *
        (1 - pseudoInverseDamped svds (Matrix.of fun (_ : Fin 1) (_ : Fin 1) => (2:ℝ)) 10 *
          Matrix.of fun (_ : Fin 1) (_ : Fin 1) => (2:ℝ)) = Matrix.of fun _ _ => 100 / 104 := by
      ext i j
      have hi : i = 0 := Subsingleton.elim _ _
      have hj : j = 0 := Subsingleton.elim _ _
      subst hi hj
      simp [Matrix.mul_apply, hd]
      norm_num
    show effect [fun _ => (2:ℝ)] (pseudoInverseDamped svds (_ * (1 - pseudoInverseDamped svds _ 10 * _)) 10 *ᵥ
      fun _ => 1) ≠ [0]
    have : pseudoInverseDamped svds ((Matrix.of fun (_ : Fin 1) (_ : Fin 1) => (1:ℝ)) *
        (1 - pseudoInverseDamped svds (Matrix.of fun (_ : Fin 1) (_ : Fin 1) => (2:ℝ)) 10 *
          Matrix.of fun (_ : Fin 1) (_ : Fin 1) => (2:ℝ))) 10 = Matrix.of fun _ _ => (100/104) / ((100/104)^2 + 100) := by
      rw [e1]
      ext i j
      exact hd _ i j
    refine fun hc => ?_
    have h0 : effect [fun _ => (2:ℝ)] ((Matrix.of fun (_ : Fin 1) (_ : Fin 1) =>
      ((100:ℝ)/104) / ((100/104)^2 + 100)) *ᵥ fun _ => (1:ℝ)) = [0] := by
        rw [← this]; exact hc
    simp [effect, Matrix.mulVec, dotProduct] at h0
    norm_num at h0

/-! ## Concrete cases -/

noncomputable def task1 : Task 3 := ⟨true, [![1, 2, 0], ![0, 1, 1]], [1, 2], ⟨.svd, none, 0⟩⟩
noncomputable def task2 : Task 3 := ⟨true, [![1, 1, 1]], [3], ⟨.svd, none, 0⟩⟩

example (svds : Svds) : ∃ b, hierarchicalStep svds .svd ([task1] ++ [task2]) (1 / 5) = some b := by
  have := (C55_throws svds .svd ([task1] ++ [task2]) (1 / 5)).not.2 (by simp [task1, task2])
  exact Option.ne_none_iff_exists'.1 this

example (svds : Svds) : ∃ b, stackedStep svds .svd [task1, task2] (1 / 5) = some b := by
  simp [stackedStep, stackedOk, task1, task2]

example : Regular (mat ([task1].flatMap Task.rows)) (1 / 100000) := by
  have : mat ([task1].flatMap Task.rows) = J23 := by
    show mat [![1, 2, 0], ![0, 1, 1]] = J23
    ext i j
    fin_cases i <;> fin_cases j <;> simp [mat, J23]
  rw [this]
  exact J23_regular

end Simox.Inv
