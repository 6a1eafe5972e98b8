import Verif.Trajectory.Model
import Verif.Trajectory.Spec

/-!
# Lemmas about trajectories
-/

namespace Simox.Trajectory

set_option linter.unusedSectionVars false

open Spec Simox.CSpace

variable {E : Type}

/-! ## List surgery -/

theorem getPoint_lt [Zero E] {path : List E} {i : Nat} (h : i < path.length) :
    path[i]? = some (getPoint path i) := by
  unfold getPoint
  rw [if_neg (by omega)]
  simp [List.getElem?_eq_getElem h]

theorem copyLoop_eq [Zero E] (path : List E) : ∀ (k i : Nat) (acc : List E), i + k ≤ path.length →
    copyLoop path k i acc = acc ++ (path.drop i).take k := by
  intro k
  induction k with
  | zero => intro i acc _; simp [copyLoop]
  | succ k ih =>
    intro i acc h
    have hi : i < path.length := by omega
    have e : path.drop i = getPoint path i :: path.drop (i + 1) := by
      rw [List.drop_eq_getElem_cons hi]
      have := getPoint_lt hi
      rw [List.getElem?_eq_getElem hi] at this
      rw [Option.some.inj this]
    rw [copyLoop, ih _ _ (by omega), e, addPoint]
    simp

theorem inserted_insertAt (path : List E) (pos : Nat) (ins : List E) (h : pos ≤ path.length) :
    Inserted path pos ins (path.take pos ++ ins ++ path.drop pos) := by
  have hl : (path.take pos).length = pos := by simp [h]
  refine ⟨by simp; omega, ?_, ?_, ?_⟩
  · intro j hj
    rw [List.append_assoc, List.getElem?_append_left (by omega), List.getElem?_take_of_lt hj]
  · intro j hj
    rw [List.append_assoc, List.getElem?_append_right (by omega), List.getElem?_append_left (by omega)]
    congr 1; omega
  · intro j hj
    rw [List.getElem?_append_right (by simp; omega), List.getElem?_drop]
    congr 1; simp; omega

theorem insertMany_eq : ∀ (cs : List E) (path : List E) (pos : Nat), pos ≤ path.length →
    insertMany path pos cs = path.take pos ++ cs ++ path.drop pos := by
  intro cs
  induction cs with
  | nil => intro path pos h; simp [insertMany]
  | cons c cs ih =>
    intro path pos h
    have hl : (path.take pos).length = pos := by simp [h]
    rw [insertMany, insertPosition, if_neg (by omega), ih _ _ (by simp [insertAt]; omega), insertAt]
    rw [List.take_append, List.drop_append, hl]
    have : pos + 1 - pos = 1 := by omega
    rw [this, List.take_of_length_le (l := path.take pos) (by omega),
      List.drop_eq_nil_of_le (as := path.take pos) (by omega)]
    simp

theorem insertMany_out : ∀ (cs : List E) (path : List E) (pos : Nat), pos > path.length →
    insertMany path pos cs = path := by
  intro cs
  induction cs with
  | nil => intro path pos h; rfl
  | cons c cs ih =>
    intro path pos h
    rw [insertMany, insertPosition, if_pos h, ih _ _ (by omega)]

theorem insertTrajLoop_eq [Zero E] (o : List E) (pos : Nat) : ∀ (k : Nat) (path : List E),
    pos ≤ path.length → k ≤ o.length →
    insertTrajLoop o pos k path = path.take pos ++ o.take k ++ path.drop pos := by
  intro k
  induction k with
  | zero => intro path h _; simp [insertTrajLoop]
  | succ k ih =>
    intro path h hk
    have hl : (path.take pos).length = pos := by simp [h]
    rw [insertTrajLoop, insertPosition, if_neg (by omega), ih _ (by simp [insertAt]; omega) (by omega),
      insertAt, List.take_append, List.drop_append, hl]
    have e : o.take (k + 1) = o.take k ++ [getPoint o k] := by
      rw [List.take_add_one, getPoint_lt (by omega)]; rfl
    rw [e, List.take_of_length_le (l := path.take pos) (by omega),
      List.drop_eq_nil_of_le (as := path.take pos) (by omega)]
    simp

theorem insertTrajLoop_out [Zero E] (o : List E) (pos : Nat) : ∀ (k : Nat) (path : List E),
    pos > path.length → insertTrajLoop o pos k path = path := by
  intro k
  induction k with
  | zero => intro path _; rfl
  | succ k ih => intro path h; rw [insertTrajLoop, insertPosition, if_pos h, ih _ h]

theorem removed_drop (path : List E) (s k : Nat) (h : s + k ≤ path.length) :
    Removed path s k (path.take s ++ path.drop (s + k)) := by
  have hl : (path.take s).length = s := by simp; omega
  refine ⟨by simp; omega, ?_, ?_⟩
  · intro j hj
    rw [List.getElem?_append_left (by omega), List.getElem?_take_of_lt hj]
  · intro j hj
    rw [List.getElem?_append_right (by omega), List.getElem?_drop]
    congr 1; omega

theorem eraseAt_drop (path : List E) (s m : Nat) (h : s < path.length) :
    (eraseAt path s).take s ++ (eraseAt path s).drop (s + m) =
      path.take s ++ path.drop (s + (m + 1)) := by
  have hl : (path.take s).length = s := by simp; omega
  rw [eraseAt, List.take_append, List.drop_append, hl, List.take_of_length_le (l := path.take s)
    (by omega), List.drop_eq_nil_of_le (as := path.take s) (by omega), List.drop_drop]
  have : s + 1 + (s + m - s) = s + (m + 1) := by omega
  rw [this]; simp

theorem removeLoop_eq (s : Nat) : ∀ (k : Nat) (path : List E) (r : Nat), s + k ≤ path.length →
    removeLoop s k path r = (r + k, path.take s ++ path.drop (s + k)) := by
  intro k
  induction k with
  | zero => intro path r h; simp [removeLoop]
  | succ k ih =>
    intro path r h
    rw [removeLoop, if_neg (by omega), ih _ _ (by simp [eraseAt]; omega), eraseAt_drop _ _ _ (by omega)]
    simp; omega

/-! ## Length -/

theorem polyLength_cons_cons (d : E → E → ℝ) (a b : E) (l : List E) :
    polyLength d (a :: b :: l) = d a b + polyLength d (b :: l) := rfl

theorem polyLength_append (d : E → E → ℝ) (x : E) (b : List E) : ∀ a : List E,
    polyLength d (a ++ x :: b) = polyLength d (a ++ [x]) + polyLength d (x :: b)
  | [] => by simp [polyLength]
  | [y] => by simp [polyLength]
  | y :: z :: a => by
    have := polyLength_append d x b (z :: a)
    simp only [List.cons_append, polyLength_cons_cons] at this ⊢
    linarith

theorem polyLength_reverse (d : E → E → ℝ) (hs : ∀ a b, d a b = d b a) : ∀ l : List E,
    polyLength d l.reverse = polyLength d l
  | [] => rfl
  | [_] => rfl
  | a :: b :: l => by
    have ih := polyLength_reverse d hs (b :: l)
    have : (a :: b :: l).reverse = l.reverse ++ b :: [a] := by simp
    rw [this, polyLength_append]
    rw [show l.reverse ++ [b] = (b :: l).reverse by simp, ih]
    simp [polyLength, hs b a]; ring

theorem polyLength_nonneg (d : E → E → ℝ) (h0 : ∀ a b, 0 ≤ d a b) : ∀ l : List E,
    0 ≤ polyLength d l
  | [] => le_refl _
  | [_] => le_refl _
  | a :: b :: l => by
    rw [polyLength_cons_cons]
    exact add_nonneg (h0 a b) (polyLength_nonneg d h0 (b :: l))

theorem dist_le_polyLength (d : E → E → ℝ) (h0 : ∀ a, d a a = 0)
    (ht : ∀ a b c, d a c ≤ d a b + d b c) : ∀ (l : List E) (a z : E),
    d a z ≤ polyLength d (a :: l ++ [z])
  | [], a, z => by simp [polyLength]
  | b :: l, a, z => by
    have := dist_le_polyLength d h0 ht l b z
    simp only [List.cons_append, polyLength_cons_cons] at this ⊢
    linarith [ht a b z]

theorem lengthLoop_eq (d : E → E → ℝ) (path : List E) : ∀ (k i : Nat) (acc : ℝ),
    i + k < path.length →
    lengthLoop d path k i acc = acc + polyLength d ((path.drop i).take (k + 1)) := by
  intro k
  induction k with
  | zero =>
    intro i acc h
    rw [lengthLoop, List.drop_eq_getElem_cons (by omega), List.take_succ_cons, List.take_zero,
      polyLength, add_zero]
  | succ k ih =>
    intro i acc h
    have h1 : i < path.length := by omega
    have h2 : i + 1 < path.length := by omega
    rw [lengthLoop, List.getElem?_eq_getElem h1, List.getElem?_eq_getElem h2]
    dsimp only
    rw [ih _ _ (by omega), List.drop_eq_getElem_cons h1, List.drop_eq_getElem_cons h2]
    simp only [List.take_succ_cons, polyLength_cons_cons]
    ring

theorem getLength_eq [NormedAddCommGroup E] (path : List E) :
    getLength path = polyLength dist path := by
  have e : (fun c1 c2 : E => ‖c2 - c1‖) = dist := by
    funext a b; rw [dist_comm, dist_eq_norm]
  unfold getLength
  rw [e]
  cases path with
  | nil => simp [lengthLoop, polyLength]
  | cons a l =>
    rw [lengthLoop_eq _ _ _ _ _ (by simp)]
    simp

theorem cspaceRangeLength_eq {n : Nat} (S : Space n) (path : List (Config n)) (s e : Nat) (w : Bool)
    (h : s ≤ e) (he : e < path.length) :
    cspaceRangeLength S path s e w =
      polyLength (fun a b => S.calcDist a b w) ((path.drop s).take (e + 1 - s)) := by
  unfold cspaceRangeLength
  rw [if_neg (by omega), lengthLoop_eq _ _ _ _ _ (by omega), zero_add]
  congr 2; omega

theorem cspaceLength_eq {n : Nat} (S : Space n) (path : List (Config n)) (w : Bool) :
    cspaceLength S path w = polyLength (fun a b => S.calcDist a b w) path := by
  unfold cspaceLength
  split
  · next h => rw [List.length_eq_zero_iff.mp h]; rfl
  · rw [cspaceRangeLength_eq _ _ _ _ _ (by omega) (by omega)]
    congr 1
    rw [List.drop_zero, List.take_of_length_le (by omega)]

/-! ## Arc length -/

section arc
variable [NormedAddCommGroup E]

/-- Arc length up to point `i`. -/
noncomputable def arc (path : List E) (i : Nat) : ℝ := polyLength dist (path.take (i + 1))

theorem arc_zero (path : List E) : arc path 0 = 0 := by
  unfold arc; cases path <;> simp [polyLength]

theorem arc_succ {path : List E} {i : Nat} {a b : E} (ha : path[i]? = some a)
    (hb : path[i + 1]? = some b) : arc path (i + 1) = arc path i + dist a b := by
  unfold arc
  have e1 : path.take (i + 1) = path.take i ++ [a] := by rw [List.take_add_one, ha]; rfl
  have e2 : path.take (i + 1 + 1) = path.take i ++ a :: [b] := by
    rw [List.take_add_one, hb, e1]; simp
  rw [e2, e1, polyLength_append]
  simp [polyLength]

theorem arc_last {path : List E} {i : Nat} (h : path.length ≤ i + 1) :
    arc path i = polyLength dist path := by
  unfold arc; rw [List.take_of_length_le h]

theorem arc_mono_dist {path : List E} : ∀ (k i : Nat) (a b : E), path[i]? = some a →
    path[i + k]? = some b → dist a b ≤ arc path (i + k) - arc path i := by
  intro k
  induction k with
  | zero => intro i a b ha hb; rw [Nat.add_zero, ha] at hb; cases hb; simp
  | succ k ih =>
    intro i a b ha hb
    have hlt : i + (k + 1) < path.length := by
      by_contra h
      rw [List.getElem?_eq_none (by omega)] at hb; cases hb
    have hc : path[i + k]? = some (path[i + k]'(by omega)) := List.getElem?_eq_getElem _
    have := ih i a _ ha hc
    have e := arc_succ hc (show path[i + k + 1]? = some b from hb)
    rw [show i + (k + 1) = i + k + 1 by omega, e]
    have := dist_triangle a (path[i + k]'(by omega)) b
    linarith

theorem arc_mono {path : List E} {i j : Nat} (h : i ≤ j) (hj : j < path.length) :
    arc path i ≤ arc path j := by
  obtain ⟨k, rfl⟩ := Nat.exists_eq_add_of_le h
  have := arc_mono_dist k i (path[i]'(by omega)) (path[i + k]'hj) (List.getElem?_eq_getElem _)
    (List.getElem?_eq_getElem _)
  have := dist_nonneg (x := path[i]'(by omega)) (y := path[i + k]'hj)
  linarith

variable [NormedSpace ℝ E]

theorem dist_seg (a b : E) (f : ℝ) (hf : 0 ≤ f) : dist a (a + f • (b - a)) = f * dist a b := by
  rw [dist_comm, dist_eq_norm, add_sub_cancel_left, norm_smul, Real.norm_of_nonneg hf, dist_comm,
    dist_eq_norm]

theorem dist_seg' (a b : E) (f : ℝ) (hf : f ≤ 1) :
    dist (a + f • (b - a)) b = (1 - f) * dist a b := by
  have : b - (a + f • (b - a)) = (1 - f) • (b - a) := by
    rw [sub_smul, one_smul]; abel
  rw [dist_comm, dist_eq_norm, this, norm_smul, Real.norm_of_nonneg (by linarith), dist_comm,
    dist_eq_norm]

theorem dist_seg_seg (a b : E) (f g : ℝ) :
    dist (a + f • (b - a)) (a + g • (b - a)) = |f - g| * dist a b := by
  have : (a + f • (b - a)) - (a + g • (b - a)) = (f - g) • (b - a) := by
    rw [sub_smul]; abel
  rw [dist_eq_norm, this, norm_smul, Real.norm_eq_abs, dist_comm a b, dist_eq_norm]

theorem onSegment_lip_lt {path : List E} {s t : ℝ} {i j : Nat} {p q : E} (hp : OnSegment path s i p)
    (hq : OnSegment path t j q) (h : i < j) : dist p q ≤ t - s := by
  obtain ⟨a, b, ha, hb, f, hf0, hf1, rfl, hs⟩ := hp
  obtain ⟨c, d, hc, hd, g, hg0, hg1, rfl, ht⟩ := hq
  obtain ⟨k, rfl⟩ := Nat.exists_eq_add_of_le (Nat.succ_le_of_lt h)
  have h1 := arc_mono_dist k (i + 1) b c hb hc
  have h2 := arc_succ ha hb
  have h3 := dist_seg' a b f hf1
  have h4 := dist_seg a b f hf0
  have h5 := dist_triangle4 (a + f • (b - a)) b c (c + g • (d - c))
  change arc path i + _ = s at hs
  change arc path _ + _ = t at ht
  simp only [Nat.succ_eq_add_one] at *
  linarith

theorem onSegment_lip {path : List E} {s t : ℝ} {i j : Nat} {p q : E} (hp : OnSegment path s i p)
    (hq : OnSegment path t j q) : dist p q ≤ |s - t| := by
  rcases lt_trichotomy i j with h | h | h
  · have := onSegment_lip_lt hp hq h
    rw [abs_sub_comm]; exact this.trans (le_abs_self _)
  · subst h
    obtain ⟨a, b, ha, hb, f, hf0, hf1, rfl, hs⟩ := hp
    obtain ⟨c, d, hc, hd, g, hg0, hg1, rfl, ht⟩ := hq
    rw [ha] at hc; rw [hb] at hd
    cases hc; cases hd
    rw [dist_seg_seg, ← hs, ← ht, dist_seg a b f hf0, dist_seg a b g hg0]
    rw [show ∀ x : ℝ, x + f * dist a b - (x + g * dist a b) = (f - g) * dist a b by intro x; ring,
      abs_mul, abs_of_nonneg (dist_nonneg (x := a) (y := b))]
  · have := onSegment_lip_lt hq hp h
    rw [dist_comm]; exact this.trans (le_abs_self _)

theorem onSegment_bounds {path : List E} {s : ℝ} {i : Nat} {p : E} (hp : OnSegment path s i p) :
    arc path i ≤ s ∧ s ≤ arc path (i + 1) := by
  obtain ⟨a, b, ha, hb, f, hf0, hf1, rfl, hs⟩ := hp
  have h2 := arc_succ ha hb
  have h4 := dist_seg a b f hf0
  change arc path i + _ = s at hs
  have := dist_nonneg (x := a) (y := b)
  constructor
  · nlinarith
  · nlinarith

theorem onSegment_reverse {path : List E} {s : ℝ} {i : Nat} {p : E} (hp : OnSegment path s i p) :
    OnSegment path.reverse (polyLength dist path - s) (path.length - 2 - i) p := by
  obtain ⟨a, b, ha, hb, f, hf0, hf1, hpe, hs⟩ := hp
  have hlt : i + 1 < path.length := by
    by_contra h
    rw [List.getElem?_eq_none (by omega)] at hb; cases hb
  refine ⟨b, a, ?_, ?_, 1 - f, by linarith, by linarith, ?_, ?_⟩
  · rw [List.getElem?_reverse (by omega), ← hb]; congr 1; omega
  · rw [List.getElem?_reverse (by omega), ← ha]; congr 1; omega
  · rw [hpe, sub_smul, one_smul, smul_sub, smul_sub]; abel
  · have e : path.reverse.take (path.length - 2 - i + 1) = (path.drop (i + 1)).reverse := by
      rw [List.take_reverse]; congr 2; omega
    rw [e, polyLength_reverse _ dist_comm]
    have hd : path.drop (i + 1) = b :: path.drop (i + 2) := by
      rw [List.drop_eq_getElem_cons hlt]
      rw [List.getElem?_eq_getElem hlt] at hb
      rw [Option.some.inj hb]
    have h1 : path = path.take (i + 1) ++ b :: path.drop (i + 2) := by
      rw [← hd, List.take_append_drop]
    have h2 : polyLength dist path = arc path (i + 1) + polyLength dist (path.drop (i + 1)) := by
      conv_lhs => rw [h1]
      rw [polyLength_append, hd]
      congr 1
      unfold arc
      rw [List.take_add_one (i := i + 1), hb]; rfl
    have h3 := arc_succ ha hb
    change arc path i + _ = s at hs
    have h4 := dist_seg' a b f hf1
    have h5 := dist_seg a b f hf0
    rw [hpe] at hs ⊢
    rw [dist_comm b, h2, h3, h4]
    linarith

/-! ## The segment search -/

/-- What the search returns when it started at point 0. -/
theorem segSearch_spec (path : List E) (wanted : ℝ) : ∀ (m i : Nat) (c1 c2 : E) (act last : ℝ),
    path.length - i = m → i < path.length → path[i]? = some c2 → act = arc path i →
    (i = 0 → last = 0 ∧ c1 = c2) →
    (0 < i → path[i - 1]? = some c1 ∧ last = dist c1 c2 ∧ arc path (i - 1) < wanted) →
    ∃ j b1 b2, segSearch path wanted i c1 c2 act last = (j, b1, b2, arc path j, dist b1 b2) ∧
      j < path.length ∧ path[j]? = some b2 ∧ (j = 0 → b1 = b2) ∧
      (0 < j → path[j - 1]? = some b1 ∧ arc path (j - 1) < wanted) ∧
      (arc path j < wanted → path.length ≤ j + 1) := by
  intro m
  induction m with
  | zero => intro i c1 c2 act last hm hi; omega
  | succ m ih =>
    intro i c1 c2 act last hm hi hc2 hact h0 h1
    rw [segSearch]
    split
    · next h =>
      obtain ⟨hw, hi'⟩ := h
      have hp := getPoint_lt (path := path) (i := i + 1) (by omega)
      have hn : ‖getPoint path (i + 1) - c2‖ = dist c2 (getPoint path (i + 1)) := by
        rw [dist_comm, dist_eq_norm]
      dsimp only
      apply ih (i + 1) c2 _ _ _ (by omega) (by omega) hp
      · rw [arc_succ hc2 hp, hact, hn]
      · intro h; omega
      · intro _
        refine ⟨by simpa using hc2, hn, ?_⟩
        rw [Nat.add_sub_cancel, ← hact]; exact hw
    · next h =>
      refine ⟨i, c1, c2, ?_, hi, hc2, ?_, ?_, ?_⟩
      · rcases Nat.eq_zero_or_pos i with hz | hz
        · obtain ⟨hl, rfl⟩ := h0 hz
          rw [hl, dist_self, hact]
        · rw [(h1 hz).2.1, hact]
      · intro hz; exact (h0 hz).2
      · intro hz; exact ⟨(h1 hz).1, (h1 hz).2.2⟩
      · intro hlt
        by_contra hc
        exact h ⟨by rw [hact]; exact hlt, by omega⟩

theorem clampT_of_mem {t : ℝ} (h0 : 0 ≤ t) (h1 : t ≤ 1) : clampT t = t := by
  unfold clampT
  rw [if_neg]
  push Not
  exact ⟨h0, h1⟩

theorem clampT_mem (t : ℝ) : 0 ≤ clampT t ∧ clampT t ≤ 1 := by
  unfold clampT
  split
  · dsimp only
    split <;> split <;> constructor <;> linarith
  · next h => push Not at h; exact h

/-- The general case of `interpolate`. -/
theorem interpolate_mid {path : List E} {t : ℝ} (h0 : 0 < t) (h1 : t < 1)
    (hL : 0 < polyLength dist path) :
    ∃ p, ∃ i : Nat, interpolate path t = some (p, (i : Int)) ∧
      OnSegment path (t * polyLength dist path) i p := by
  have hne : path.length ≠ 0 := by
    intro h; rw [List.length_eq_zero_iff.mp h] at hL; simp [polyLength] at hL
  have hp0 := getPoint_lt (path := path) (i := 0) (by omega)
  obtain ⟨j, b1, b2, hr, hj, hb2, hz, hpos, hend⟩ := segSearch_spec path (getLength path * t)
    path.length 0 (getPoint path 0) (getPoint path 0) 0 0 rfl (by omega) hp0 (arc_zero _).symm
    (fun _ => ⟨rfl, rfl⟩) (fun h => absurd h (by omega))
  have hw : getLength path * t = t * polyLength dist path := by rw [getLength_eq]; ring
  have hwpos : 0 < t * polyLength dist path := by positivity
  have hwlt : t * polyLength dist path < polyLength dist path := by nlinarith
  rw [hw] at hr hpos hend
  have hge : t * polyLength dist path ≤ arc path j := by
    by_contra hlt
    have := hend (by linarith)
    rw [arc_last this] at hlt
    linarith
  have hj0 : 0 < j := by
    rcases Nat.eq_zero_or_pos j with h | h
    · rw [h, arc_zero] at hge; linarith
    · exact h
  obtain ⟨hb1, harc⟩ := hpos hj0
  obtain ⟨i, rfl⟩ : ∃ i, j = i + 1 := ⟨j - 1, by omega⟩
  simp only [Nat.add_sub_cancel] at hb1 harc
  have hsucc := arc_succ hb1 hb2
  have hd : 0 < dist b1 b2 := by linarith
  have hact : arc path (i + 1) - dist b1 b2 = arc path i := by linarith
  have hf1 : (t * polyLength dist path - arc path i) / dist b1 b2 ≤ 1 := by
    rw [div_le_one hd]; linarith
  have hf0 : 0 ≤ (t * polyLength dist path - arc path i) / dist b1 b2 :=
    div_nonneg (by linarith) hd.le
  refine ⟨b1 + ((t * polyLength dist path - arc path i) / dist b1 b2) • (b2 - b1), i, ?_, ?_⟩
  · unfold interpolate
    rw [clampT_of_mem h0.le h1.le]
    dsimp only
    rw [if_neg hne, if_neg h0.ne', if_neg h1.ne, hw, hr]
    dsimp only
    rw [if_pos hd, hact, if_neg (not_lt.mpr hf1)]
    simp
  · refine ⟨b1, b2, hb1, hb2, _, hf0, hf1, rfl, ?_⟩
    rw [dist_seg _ _ _ hf0, div_mul_cancel₀ _ hd.ne']
    change arc path i + _ = _
    ring

end arc

end Simox.Trajectory
