/-
Helper lemmas for the voxel tree: addressing of voxels, reading and writing.
-/
import Mathlib.Algebra.Order.Floor.Semiring
import Mathlib.Tactic.Linarith
import Mathlib.Tactic.Ring
import Mathlib.Tactic.FieldSimp
import Mathlib.Tactic.Positivity
import Verif.Voxel.Model
import Verif.Voxel.Spec

namespace Simox.Vox

variable {N : Nat} {T : Type}

/-! ### Child numbers -/

theorem childIndex_lt : ∀ (n : Nat) (b : Fin n → Bool), childIndex n b < 2 ^ n
  | 0, _ => by simp [childIndex]
  | n + 1, b => by
    have := childIndex_lt n (fun i => b i.castSucc)
    unfold childIndex
    rw [pow_succ]
    split <;> omega

theorem childIndex_inj : ∀ (n : Nat) (a b : Fin n → Bool), childIndex n a = childIndex n b → a = b
  | 0, a, b => fun _ => funext (fun i => i.elim0)
  | n + 1, a, b => by
    intro h
    have ha := childIndex_lt n (fun i => a i.castSucc)
    have hb := childIndex_lt n (fun i => b i.castSucc)
    unfold childIndex at h
    have hlast : a (Fin.last n) = b (Fin.last n) := by
      cases h1 : a (Fin.last n) <;> cases h2 : b (Fin.last n) <;> simp [h1, h2] at h ⊢ <;> omega
    rw [hlast] at h
    have := childIndex_inj n _ _ (Nat.add_right_cancel h)
    funext i
    refine Fin.lastCases hlast (fun j => ?_) i
    exact congrFun this j

theorem childIndex_decode : ∀ (n k : Nat), k < 2 ^ n → childIndex n (decode n k) = k
  | 0, k => by
    intro h
    simp [childIndex] at h ⊢
    omega
  | n + 1, k => by
    intro h
    rw [pow_succ] at h
    unfold childIndex
    have h1 : (fun i : Fin n => decode (n + 1) k i.castSucc) =
        decode n (if k ≥ 2 ^ n then k - 2 ^ n else k) := by
      funext i
      conv => lhs; unfold decode
      rw [dif_pos (by simp)]
      rfl
    have h2 : decode (n + 1) k (Fin.last n) = decide (k ≥ 2 ^ n) := by
      unfold decode
      rw [dif_neg (by simp)]
    rw [h1, h2]
    by_cases hk : k ≥ 2 ^ n
    · rw [if_pos hk, childIndex_decode n _ (by omega)]
      simp [hk]
    · rw [if_neg hk, childIndex_decode n _ (by omega)]
      simp [hk]

theorem decode_childIndex (n : Nat) (b : Fin n → Bool) : decode n (childIndex n b) = b :=
  childIndex_inj n _ _ (childIndex_decode n _ (childIndex_lt n b))

/-! ### Voxels at every level -/

/-- Voxel number at level `l`, positions outside clamped to the boundary voxels. -/
def cvox (mn sz : ℚ) (l : Nat) (x : ℚ) : Nat := min (⌈(x - mn) / sz * 2 ^ l⌉₊ - 1) (2 ^ l - 1)

theorem half_step (y : ℚ) (n : Nat) (hn : 1 ≤ n) :
    min (⌈2 * y⌉₊ - 1) (2 * n - 1) =
      2 * min (⌈y⌉₊ - 1) (n - 1) +
        (if y > ((min (⌈y⌉₊ - 1) (n - 1) : Nat) : ℚ) + 1 / 2 then 1 else 0) := by
  rcases le_or_gt y 0 with h0 | h0
  · have e1 : ⌈y⌉₊ = 0 := Nat.ceil_eq_zero.2 h0
    have e2 : ⌈2 * y⌉₊ = 0 := Nat.ceil_eq_zero.2 (by linarith)
    rw [e1, e2]
    simp
    linarith
  · obtain ⟨c, hc⟩ : ∃ c, ⌈y⌉₊ = c + 1 := by
      have := Nat.ceil_pos.2 h0
      exact ⟨⌈y⌉₊ - 1, by omega⟩
    have hy1 : y ≤ (c : ℚ) + 1 := by
      have := Nat.le_ceil y
      rw [hc] at this
      push_cast at this
      exact this
    have hy2 : (c : ℚ) < y := by
      have : c < ⌈y⌉₊ := by omega
      exact Nat.lt_ceil.1 this
    rw [hc]
    rcases Nat.lt_or_ge c n with hcn | hcn
    · have e : min (c + 1 - 1) (n - 1) = c := by omega
      rw [e]
      by_cases hr : y > (c : ℚ) + 1 / 2
      · rw [if_pos hr]
        have : ⌈2 * y⌉₊ = 2 * c + 2 := by
          apply le_antisymm
          · apply Nat.ceil_le.2
            push_cast
            linarith
          · have : 2 * c + 1 < ⌈2 * y⌉₊ := Nat.lt_ceil.2 (by push_cast; linarith)
            omega
        rw [this]
        omega
      · rw [if_neg hr]
        have : ⌈2 * y⌉₊ = 2 * c + 1 := by
          apply le_antisymm
          · apply Nat.ceil_le.2
            push_cast
            linarith
          · have : 2 * c < ⌈2 * y⌉₊ := Nat.lt_ceil.2 (by push_cast; linarith)
            omega
        rw [this]
        omega
    · have e : min (c + 1 - 1) (n - 1) = n - 1 := by omega
      rw [e]
      have hcast : ((n - 1 : Nat) : ℚ) = (n : ℚ) - 1 := by
        rw [Nat.cast_sub hn]; simp
      have hcn' : (n : ℚ) ≤ c := by exact_mod_cast hcn
      rw [if_pos (by rw [hcast]; linarith)]
      have : 2 * c < ⌈2 * y⌉₊ := Nat.lt_ceil.2 (by push_cast; linarith)
      omega

theorem cvox_zero (mn sz x : ℚ) : cvox mn sz 0 x = 0 := by simp [cvox]

theorem cvox_lt (mn sz : ℚ) (l : Nat) (x : ℚ) : cvox mn sz l x < 2 ^ l := by
  have : 0 < 2 ^ l := Nat.pos_of_ne_zero (by positivity)
  unfold cvox
  omega

theorem cvox_succ (mn sz : ℚ) (hs : 0 < sz) (l : Nat) (x : ℚ) :
    cvox mn sz (l + 1) x = 2 * cvox mn sz l x +
      (if x > mn + sz * (cvox mn sz l x : ℚ) / 2 ^ l + sz / 2 ^ l * (1 / 2) then 1 else 0) := by
  have h1 : 1 ≤ 2 ^ l := Nat.one_le_two_pow
  have h := half_step ((x - mn) / sz * 2 ^ l) (2 ^ l) h1
  have hp : (0 : ℚ) < 2 ^ l := by positivity
  have e1 : 2 * ((x - mn) / sz * 2 ^ l) = (x - mn) / sz * 2 ^ (l + 1) := by ring
  have e2 : 2 * 2 ^ l - 1 = 2 ^ (l + 1) - 1 := by rw [pow_succ, Nat.mul_comm]
  rw [e1, e2] at h
  unfold cvox
  rw [h]
  congr 1
  set k : Nat := min (⌈(x - mn) / sz * 2 ^ l⌉₊ - 1) (2 ^ l - 1) with hk
  have : (x - mn) / sz * 2 ^ l > (k : ℚ) + 1 / 2 ↔ x > mn + sz * (k : ℚ) / 2 ^ l + sz / 2 ^ l * (1 / 2) := by
    have e : mn + sz * (k : ℚ) / 2 ^ l + sz / 2 ^ l * (1 / 2) = mn + sz / 2 ^ l * ((k : ℚ) + 1 / 2) := by
      ring
    rw [e]
    have hq : 0 < sz / 2 ^ l := div_pos hs hp
    have e3 : (x - mn) / sz * 2 ^ l = (x - mn) / (sz / 2 ^ l) := by
      field_simp
    rw [e3, gt_iff_lt, gt_iff_lt, lt_div_iff₀ hq]
    constructor <;> intro h <;> nlinarith
  by_cases hc : (x - mn) / sz * 2 ^ l > (k : ℚ) + 1 / 2
  · rw [if_pos hc, if_pos (this.1 hc)]
  · rw [if_neg hc, if_neg (fun e => hc (this.2 e))]

/-- A position inside lies in its voxel at every level. -/
theorem cvox_bounds (mn sz : ℚ) (hs : 0 < sz) (x : ℚ) (h1 : mn ≤ x) (h2 : x ≤ mn + sz) :
    ∀ l, mn + sz * (cvox mn sz l x : ℚ) / 2 ^ l ≤ x ∧
      x ≤ mn + sz * (cvox mn sz l x : ℚ) / 2 ^ l + sz / 2 ^ l := by
  intro l
  induction l with
  | zero => simp [cvox_zero, h1, h2]
  | succ l ih =>
    rw [cvox_succ mn sz hs]
    have e : (2 : ℚ) ^ (l + 1) = 2 * 2 ^ l := by rw [pow_succ]; ring
    have hp : (0 : ℚ) < 2 ^ l := by positivity
    set k : ℚ := (cvox mn sz l x : ℚ)
    have e1 : sz / (2 * 2 ^ l) = sz / 2 ^ l * (1 / 2) := by field_simp
    by_cases hr : x > mn + sz * k / 2 ^ l + sz / 2 ^ l * (1 / 2)
    · rw [if_pos hr]
      have e2 : sz * ((2 * cvox mn sz l x + 1 : Nat) : ℚ) / (2 * 2 ^ l) =
          sz * k / 2 ^ l + sz / 2 ^ l * (1 / 2) := by
        push_cast
        field_simp
        ring
      rw [e, e2, e1]
      constructor <;> linarith [ih.1, ih.2]
    · rw [if_neg hr]
      have e2 : sz * ((2 * cvox mn sz l x + 0 : Nat) : ℚ) / (2 * 2 ^ l) = sz * k / 2 ^ l := by
        push_cast
        field_simp
        ring
      rw [e, e2, e1]
      constructor <;> linarith [ih.1, ih.2]

theorem cvox_div (mn sz : ℚ) (hs : 0 < sz) (x : ℚ) (l : Nat) :
    ∀ d, cvox mn sz (l + d) x / 2 ^ d = cvox mn sz l x := by
  intro d
  induction d with
  | zero => simp
  | succ d ih =>
    have h := cvox_succ mn sz hs (l + d) x
    have hd : cvox mn sz (l + (d + 1)) x / 2 = cvox mn sz (l + d) x := by
      rw [← Nat.add_assoc, h]
      split <;> omega
    rw [pow_succ, Nat.mul_comm, ← Nat.div_div_eq_div_mul, hd, ih]

theorem cvox_inside (mn sz : ℚ) (hs : 0 < sz) (x : ℚ) (h2 : x ≤ mn + sz) (l : Nat) :
    cvox mn sz l x = voxelNr mn (sz / 2 ^ l) x := by
  have hp : (0 : ℚ) < 2 ^ l := by positivity
  have e : (x - mn) / (sz / 2 ^ l) = (x - mn) / sz * 2 ^ l := by field_simp
  unfold cvox voxelNr
  rw [e]
  have h : ⌈(x - mn) / sz * 2 ^ l⌉₊ ≤ 2 ^ l := by
    apply Nat.ceil_le.2
    push_cast
    have : (x - mn) / sz ≤ 1 := by rw [div_le_one hs]; linarith
    nlinarith
  omega

/-! ### Well-formed elements -/

/-- Size is positive in every dimension and there is at least one level. -/
def Params.Ok (P : Params N) : Prop := (∀ i, 0 < P.size i) ∧ 1 ≤ P.maxLevels

theorem ext_eq (P : Params N) (l : Nat) (i : Fin N) : ext P l i = P.size i / 2 ^ l := by
  induction l with
  | zero => simp [ext]
  | succ l ih => unfold ext; rw [ih, pow_succ]; field_simp

/-- Voxel of a position at a level, in all dimensions. -/
def cv (P : Params N) (l : Nat) (p : Fin N → ℚ) : Fin N → Nat := fun i => cvox (P.min i) (P.size i) l (p i)

/-- Lower corner of a voxel. -/
def posOf (P : Params N) (l : Nat) (k : Fin N → Nat) : Fin N → ℚ := fun i =>
  P.min i + P.size i * (k i : ℚ) / 2 ^ l

/-- Appending one bit per dimension. -/
def push (k : Fin N → Nat) (b : Fin N → Bool) : Fin N → Nat := fun i => 2 * k i + (b i).toNat

/-- The element sits at level `l` in voxel `k`. -/
def Wf (P : Params N) : Elem N T → Nat → (Fin N → Nat) → Prop
  | .null, _, _ => True
  | .leaf e _, l, k => e.level = l ∧ e.pos = posOf P l k ∧ l + 1 = P.maxLevels
  | .node e c, l, k => e.level = l ∧ e.pos = posOf P l k ∧ l + 1 < P.maxLevels ∧
      (∀ b, Wf P (c (childIndex N b)) (l + 1) (push k b)) ∧ ∀ j, 2 ^ N ≤ j → c j = .null

/-- Bits of a voxel number that lead from level `l` to level `l + 1`. -/
def bitsAt (m l : Nat) (v : Fin N → Nat) : Fin N → Bool := fun i => decide (v i / 2 ^ (m - (l + 1)) % 2 = 1)

/-- The entry stored for voxel `v` below an element at level `l`. -/
def content (m : Nat) : Elem N T → Nat → (Fin N → Nat) → Option T
  | .null, _, _ => none
  | .leaf _ en, _, _ => en
  | .node _ c, l, v => content m (c (childIndex N (bitsAt m l v))) (l + 1) v

theorem right_eq (P : Params N) (hP : P.Ok) (e : Info N) (l : Nat) (p : Fin N → ℚ)
    (h1 : e.level = l) (h2 : e.pos = posOf P l (cv P l p)) (i : Fin N) :
    cv P (l + 1) p i = 2 * cv P l p i + (right P e p i).toNat := by
  have hr : right P e p i = true ↔ p i > P.min i +
      P.size i * (cvox (P.min i) (P.size i) l (p i) : ℚ) / 2 ^ l + P.size i / 2 ^ l * (1 / 2) := by
    unfold right
    rw [decide_eq_true_iff, h1, h2, ext_eq]
    rfl
  simp only [cv]
  rw [cvox_succ _ _ (hP.1 i)]
  congr 1
  split <;> rename_i h
  · rw [hr.2 h]; rfl
  · rw [Bool.eq_false_iff.2 (fun e => h (hr.1 e))]; rfl

theorem push_right (P : Params N) (hP : P.Ok) (e : Info N) (l : Nat) (p : Fin N → ℚ)
    (h1 : e.level = l) (h2 : e.pos = posOf P l (cv P l p)) :
    push (cv P l p) (right P e p) = cv P (l + 1) p := by
  funext i
  rw [right_eq P hP e l p h1 h2]
  rfl

theorem bits_right (P : Params N) (hP : P.Ok) (e : Info N) (l : Nat) (p : Fin N → ℚ)
    (h1 : e.level = l) (h2 : e.pos = posOf P l (cv P l p)) (m : Nat) (hl : l + 1 ≤ m) :
    bitsAt m l (cv P m p) = right P e p := by
  funext i
  have hd : cv P m p i / 2 ^ (m - (l + 1)) = cv P (l + 1) p i := by
    have := cvox_div (P.min i) (P.size i) (hP.1 i) (p i) (l + 1) (m - (l + 1))
    rw [show l + 1 + (m - (l + 1)) = m by omega] at this
    exact this
  unfold bitsAt
  rw [hd, right_eq P hP e l p h1 h2]
  cases right P e p i <;> simp

theorem covers_of_inBox (P : Params N) (hP : P.Ok) (e : Info N) (l : Nat) (p : Fin N → ℚ)
    (h1 : e.level = l) (h2 : e.pos = posOf P l (cv P l p)) (hp : InBox P.min P.size p) :
    covers P e p = true := by
  unfold covers
  rw [decide_eq_true_iff]
  intro i
  have := cvox_bounds (P.min i) (P.size i) (hP.1 i) (p i) (hp i).1 (hp i).2 l
  rw [h1, h2, ext_eq]
  simp only [posOf, cv]
  rintro (h | h)
  · linarith [this.1]
  · linarith [this.2]

theorem childPos_eq (P : Params N) (e : Info N) (l : Nat) (k : Fin N → Nat) (b : Fin N → Bool)
    (h1 : e.level = l) (h2 : e.pos = posOf P l k) : childPos P e b = posOf P (l + 1) (push k b) := by
  funext i
  unfold childPos
  rw [h1, h2, ext_eq]
  simp only [posOf, push]
  rw [pow_succ]
  have hp : (2 : ℚ) ^ l ≠ 0 := by positivity
  cases b i
  · simp only [Bool.toNat_false, Bool.false_eq_true, if_false]
    push_cast
    field_simp
    ring
  · simp only [Bool.toNat_true, if_true]
    push_cast
    field_simp
    ring

/-! ### Reading -/

theorem getEntry_eq (P : Params N) (hP : P.Ok) (p : Fin N → ℚ) (hp : InBox P.min P.size p) :
    ∀ (e : Elem N T) (l : Nat), Wf P e l (cv P l p) →
      getEntry P e p = content (P.maxLevels - 1) e l (cv P (P.maxLevels - 1) p)
  | .null, _, _ => rfl
  | .leaf _ _, _, _ => rfl
  | .node e c, l, h => by
    obtain ⟨h1, h2, h3, h4, _⟩ := h
    unfold getEntry content
    rw [if_pos (covers_of_inBox P hP e l p h1 h2 hp),
      bits_right P hP e l p h1 h2 (P.maxLevels - 1) (by omega)]
    apply getEntry_eq P hP p hp
    have := h4 (right P e p)
    rwa [push_right P hP e l p h1 h2] at this

theorem hasEntry_eq (P : Params N) (hP : P.Ok) (p : Fin N → ℚ) (hp : InBox P.min P.size p) :
    ∀ (e : Elem N T) (l : Nat), Wf P e l (cv P l p) → hasEntry P e p = (getEntry P e p).isSome
  | .null, _, _ => rfl
  | .leaf e en, l, h => by
    obtain ⟨h1, h2, _⟩ := h
    unfold hasEntry getEntry
    rw [covers_of_inBox P hP e l p h1 h2 hp]
    rfl
  | .node e c, l, h => by
    obtain ⟨h1, h2, h3, h4, _⟩ := h
    unfold hasEntry getEntry
    rw [if_pos (covers_of_inBox P hP e l p h1 h2 hp),
      if_pos (covers_of_inBox P hP e l p h1 h2 hp)]
    apply hasEntry_eq P hP p hp _ (l + 1)
    have := h4 (right P e p)
    rwa [push_right P hP e l p h1 h2] at this

/-- The leaf found for a position contains it. -/
theorem getLeaf_spec (P : Params N) (hP : P.Ok) (p : Fin N → ℚ) (hp : InBox P.min P.size p) :
    ∀ (e : Elem N T) (l : Nat), Wf P e l (cv P l p) →
      (∀ i en, getLeaf P e p = some (i, en) → i.level + 1 = P.maxLevels ∧
        i.pos = posOf P i.level (cv P i.level p) ∧ getEntry P e p = en) ∧
      (getLeaf P e p = none → getEntry P e p = none)
  | .null, _, _ => ⟨fun _ _ h => by simp [getLeaf] at h, fun _ => rfl⟩
  | .leaf e en, l, h => by
    obtain ⟨h1, h2, h3⟩ := h
    refine ⟨?_, fun h => by simp [getLeaf] at h⟩
    intro i en' h
    have h := Option.some.inj h
    have e1 : i = e := (congrArg Prod.fst h).symm
    have e2 : en' = en := (congrArg Prod.snd h).symm
    subst e1 e2
    rw [h1]
    exact ⟨h3, h2, rfl⟩
  | .node e c, l, h => by
    obtain ⟨h1, h2, h3, h4, _⟩ := h
    unfold getLeaf getEntry
    rw [if_pos (covers_of_inBox P hP e l p h1 h2 hp),
      if_pos (covers_of_inBox P hP e l p h1 h2 hp)]
    apply getLeaf_spec P hP p hp _ (l + 1)
    have := h4 (right P e p)
    rwa [push_right P hP e l p h1 h2] at this

/-! ### Writing -/

theorem newElem_wf (P : Params N) (id : Nat) (l : Nat) (k : Fin N → Nat) (hl : l + 1 ≤ P.maxLevels) :
    Wf P (newElem P id (posOf P l k) l : Elem N T) l k := by
  unfold newElem
  by_cases h : l + 1 ≥ P.maxLevels
  · rw [if_pos h]
    exact ⟨rfl, rfl, by omega⟩
  · rw [if_neg h]
    exact ⟨rfl, rfl, by omega, fun _ => trivial, fun _ _ => rfl⟩

theorem newElem_content (P : Params N) (id : Nat) (l : Nat) (pos : Fin N → ℚ) (m : Nat)
    (v : Fin N → Nat) : content m (newElem P id pos l : Elem N T) l v = none := by
  unfold newElem
  split <;> rfl

theorem newElem_ne_null (P : Params N) (id : Nat) (l : Nat) (pos : Fin N → ℚ) :
    (newElem P id pos l : Elem N T) ≠ .null := by
  unfold newElem
  split <;> simp

theorem createChild_spec (P : Params N) (e : Info N) (c : Nat → Elem N T) (next : Nat)
    (p : Fin N → ℚ) :
    (c (childIndex N (right P e p)) = .null ∧ createChild P e c next p =
      (newElem P (next + 1) (childPos P e (right P e p)) (e.level + 1), next + 1)) ∨
    (c (childIndex N (right P e p)) ≠ .null ∧ createChild P e c next p =
      (c (childIndex N (right P e p)), next)) := by
  unfold createChild
  cases h : c (childIndex N (right P e p)) with
  | null => exact Or.inl ⟨rfl, rfl⟩
  | leaf i en => exact Or.inr ⟨by simp, rfl⟩
  | node i d => exact Or.inr ⟨by simp, rfl⟩

theorem setEntry_spec (P : Params N) (hP : P.Ok) (p : Fin N → ℚ) (hp : InBox P.min P.size p)
    (x : T) : ∀ (f : Nat) (e : Elem N T) (l next : Nat), P.maxLevels ≤ l + f → 1 ≤ f →
      e ≠ .null → Wf P e l (cv P l p) →
      ∃ e' next', setEntry P f e next p x = some (e', next', true) ∧ e' ≠ .null ∧
        Wf P e' l (cv P l p) ∧
        ∀ v : Fin N → Nat, (∀ i, v i / 2 ^ (P.maxLevels - 1 - l) = cv P l p i) →
          content (P.maxLevels - 1) e' l v =
            if v = cv P (P.maxLevels - 1) p then some x else content (P.maxLevels - 1) e l v := by
  intro f
  induction f with
  | zero => intro e l next h1 h2; omega
  | succ f ih =>
    intro e l next hf _ hne h
    cases e with
    | null => exact absurd rfl hne
    | leaf e en =>
      obtain ⟨h1, h2, h3⟩ := h
      have hc := covers_of_inBox P hP e l p h1 h2 hp
      refine ⟨.leaf e (some x), next, ?_, by simp, ⟨h1, h2, h3⟩, ?_⟩
      · unfold setEntry
        simp [hc]
      · intro v hv
        have : v = cv P (P.maxLevels - 1) p := by
          funext i
          have := hv i
          rw [show P.maxLevels - 1 - l = 0 by omega] at this
          rw [show P.maxLevels - 1 = l by omega]
          simpa using this
        rw [if_pos this]
        rfl
    | node e c =>
      obtain ⟨h1, h2, h3, h4, h5⟩ := h
      have hc := covers_of_inBox P hP e l p h1 h2 hp
      have hpush := push_right P hP e l p h1 h2
      -- the child to descend to
      have hchild : (createChild P e c next p).1 ≠ .null ∧
          Wf P (createChild P e c next p).1 (l + 1) (cv P (l + 1) p) ∧
          ∀ v, content (P.maxLevels - 1) (createChild P e c next p).1 (l + 1) v =
            content (P.maxLevels - 1) (c (childIndex N (right P e p))) (l + 1) v := by
        rcases createChild_spec P e c next p with ⟨hn, he⟩ | ⟨hn, he⟩
        · rw [he, h1, childPos_eq P e l _ _ h1 h2, hpush, hn]
          refine ⟨newElem_ne_null _ _ _ _, newElem_wf P _ _ _ (by omega), ?_⟩
          intro v
          rw [newElem_content]
          rfl
        · rw [he]
          refine ⟨hn, ?_, fun _ => rfl⟩
          have := h4 (right P e p)
          rwa [hpush] at this
      obtain ⟨e', next', s1, s2, s3, s4⟩ := ih (createChild P e c next p).1 (l + 1)
        (createChild P e c next p).2 (by omega) (by omega) hchild.1 hchild.2.1
      refine ⟨.node e (upd c (childIndex N (right P e p)) e'), next', ?_, by simp, ?_, ?_⟩
      · unfold setEntry
        simp only [hc, Bool.not_true, Bool.false_eq_true, if_false]
        rw [if_neg (by omega), s1]
      · refine ⟨h1, h2, h3, ?_, ?_⟩
        · intro b
          unfold upd
          by_cases hb : childIndex N b = childIndex N (right P e p)
          · rw [if_pos hb, childIndex_inj N _ _ hb, hpush]
            exact s3
          · rw [if_neg hb]; exact h4 b
        · intro j hj
          unfold upd
          have := childIndex_lt N (right P e p)
          rw [if_neg (by omega)]
          exact h5 j hj
      · intro v hv
        unfold content upd
        have hbp := bits_right P hP e l p h1 h2 (P.maxLevels - 1) (by omega)
        by_cases hb : bitsAt (P.maxLevels - 1) l v = right P e p
        · rw [hb, if_pos rfl]
          rw [s4 v ?_, hchild.2.2 v]
          intro i
          have e1 : v i / 2 ^ (P.maxLevels - 1 - (l + 1)) / 2 = cv P l p i := by
            rw [Nat.div_div_eq_div_mul, ← pow_succ,
              show P.maxLevels - 1 - (l + 1) + 1 = P.maxLevels - 1 - l by omega]
            exact hv i
          have e2 := congrFun hb i
          unfold bitsAt at e2
          rw [right_eq P hP e l p h1 h2, ← e1, ← e2]
          have := Nat.div_add_mod (v i / 2 ^ (P.maxLevels - 1 - (l + 1))) 2
          rcases Nat.mod_two_eq_zero_or_one (v i / 2 ^ (P.maxLevels - 1 - (l + 1))) with hm | hm
          · rw [hm] at this ⊢
            simp
            omega
          · rw [hm] at this ⊢
            simp
            omega
        · rw [if_neg (fun h => hb (childIndex_inj N _ _ h))]
          have hne : v ≠ cv P (P.maxLevels - 1) p := by
            rintro rfl
            exact hb hbp
          rw [if_neg hne]

/-- Positions outside the box change nothing. -/
theorem setEntry_outside (P : Params N) (p : Fin N → ℚ) (x : T) (f : Nat) (e : Elem N T)
    (next : Nat) (hne : e ≠ .null) (k : Fin N → Nat) (h : Wf P e 0 k) (hk : k = fun _ => 0)
    (hp : ¬ InBox P.min P.size p) : setEntry P (f + 1) e next p x = some (e, next, false) := by
  have key : ∀ i : Info N, i.level = 0 → i.pos = posOf P 0 k → covers P i p = false := by
    intro i h1 h2
    rw [← Bool.not_eq_true]
    intro hc
    apply hp
    unfold covers at hc
    rw [decide_eq_true_iff] at hc
    intro j
    have := hc j
    rw [h1, h2, ext_eq, hk] at this
    simp only [posOf] at this
    simp at this
    exact ⟨this.1, this.2⟩
  cases e with
  | null => exact absurd rfl hne
  | leaf i en =>
    unfold setEntry
    rw [key i h.1 h.2.1]
    rfl
  | node i c =>
    unfold setEntry
    rw [key i h.1 h.2.1]
    rfl

end Simox.Vox
