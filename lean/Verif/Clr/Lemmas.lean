import Mathlib.Tactic.Ring
import Mathlib.Tactic.Linarith
import Mathlib.Tactic.FieldSimp
import Mathlib.Tactic.Push
import Verif.Clr.Spec

/-!
# Colour maps: lemmas
-/

set_option linter.unusedSectionVars false

namespace Simox.Clr

section
variable {K : Type} [Field K] [LinearOrder K] [IsStrictOrderedRing K]

/-- What is known of a map made of keys: the keys are sorted, and the intervals are their positions. -/
structure Made (l : List (Key K)) (m : Map K) : Prop where
  perm : m.keys.Perm l
  sorted : m.keys.Pairwise fun a b => a.pos ≤ b.pos
  intervals : m.intervals = if l.length > 1 then m.keys.map (·.pos) else []

theorem Made.empty : Made ([] : List (Key K)) ⟨[], []⟩ := ⟨.refl _, .nil, rfl⟩

theorem Made.add {sort : List (Key K) → List (Key K)} (hs : Sorts sort) {l : List (Key K)} {m : Map K} (h : Made l m) (k : Key K) : Made (l ++ accepted [k]) (m.add sort k) := by
  unfold Map.add
  by_cases hk : k.pos < 0 ∨ k.pos > 1
  · rw [if_pos hk]
    have : accepted [k] = [] := by
      unfold accepted
      rw [List.filter_eq_nil_iff]
      intro x hx
      rw [List.mem_singleton] at hx
      subst hx
      rw [decide_eq_true_eq]
      rintro ⟨h1, h2⟩
      rcases hk with hk | hk
      · exact absurd h1 (not_le.2 hk)
      · exact absurd h2 (not_le.2 hk)
    rw [this, List.append_nil]
    exact h
  · rw [if_neg hk]
    push Not at hk
    have : accepted [k] = [k] := by simp [accepted, hk.1, hk.2]
    rw [this]
    have hp : (m.keys ++ [k]).Perm (l ++ [k]) := h.perm.append_right _
    unfold Map.sort
    by_cases hl : (m.keys ++ [k]).length > 1
    · rw [if_pos hl]
      refine ⟨((hs _).1).trans hp, (hs _).2, ?_⟩
      rw [if_pos (hp.length_eq ▸ hl)]
    · rw [if_neg hl]
      refine ⟨hp, ?_, ?_⟩
      · have : (m.keys ++ [k]).length = 1 := by simp at hl ⊢; exact hl
        obtain ⟨x, hx⟩ := List.length_eq_one_iff.1 this
        simp only
        rw [hx]
        exact List.pairwise_singleton _ _
      · rw [if_neg (hp.length_eq ▸ hl)]
        have hm : m.keys = [] := by simp at hl; exact hl
        have : l = [] := by
          have hq := h.perm
          rw [hm] at hq
          exact List.nil_perm.1 hq
        have hi := h.intervals
        rw [this] at hi
        exact hi

theorem accepted_append (a b : List (Key K)) : accepted (a ++ b) = accepted a ++ accepted b := List.filter_append ..

theorem Made.addAll {sort : List (Key K) → List (Key K)} (hs : Sorts sort) (ks : List (Key K)) : ∀ {l : List (Key K)} {m : Map K}, Made l m → Made (l ++ accepted ks) (m.addAll sort ks) := by
  induction ks with
  | nil =>
    intro l m h
    have : accepted ([] : List (Key K)) = [] := rfl
    rw [this, List.append_nil]
    exact h
  | cons k ks ih =>
    intro l m h
    have e : accepted (k :: ks) = accepted [k] ++ accepted ks := accepted_append [k] ks
    rw [e, ← List.append_assoc]
    exact ih (h.add hs k)

/-- Two keys, and a position between them. -/
theorem mix_blend {p : K} {a b : Key K} (h1 : a.pos ≤ p) (h2 : p ≤ b.pos) (h : a.pos < b.pos) : mix p a.pos b.pos a b = Color.blend ((p - a.pos) / (b.pos - a.pos)) a.color b.color := by
  have e1 : |a.pos - p| = p - a.pos := by rw [abs_sub_comm, abs_of_nonneg (by linarith)]
  have e2 : |b.pos - p| = b.pos - p := abs_of_nonneg (by linarith)
  have e3 : p - a.pos + (b.pos - p) = b.pos - a.pos := by ring
  have h0 : b.pos - a.pos ≠ 0 := by linarith
  have e4 : (b.pos - p) / (b.pos - a.pos) = 1 - (p - a.pos) / (b.pos - a.pos) := by field_simp; ring
  unfold mix
  simp only
  rw [e1, e2, e3, if_pos h0, if_pos h0, e4]
  unfold Color.blend Key.color
  simp only [Color.mk.injEq]
  refine ⟨?_, ?_, ?_, ?_⟩ <;> ring

theorem blend_zero (c d : Color K) : Color.blend 0 c d = c := by simp [Color.blend]

theorem blend_one (c d : Color K) : Color.blend 1 c d = d := by simp [Color.blend]

theorem mix_left {p : K} {a b : Key K} (e : p = a.pos) (h : a.pos < b.pos) : mix p a.pos b.pos a b = a.color := by
  subst e
  rw [mix_blend le_rfl h.le h, sub_self, zero_div, blend_zero]

theorem mix_right {p : K} {a b : Key K} (e : p = b.pos) (h : a.pos < b.pos) : mix p a.pos b.pos a b = b.color := by
  subst e
  rw [mix_blend h.le le_rfl h, div_self (by linarith), blend_one]

/-- Neighbouring keys of a list without two keys at the same position. -/
theorem find_between {p : K} {a b : Key K} (h1 : a.pos ≤ p) (h2 : p ≤ b.pos) (h : a.pos < b.pos) : ∀ l : List (Key K), l.Pairwise (fun x y => x.pos < y.pos) → a ∈ l → b ∈ l →
    (∀ c ∈ l, c.pos ≤ a.pos ∨ b.pos ≤ c.pos) → find p l (l.map (·.pos)) = some (mix p a.pos b.pos a b)
  | [], _, ha, _, _ => by simp at ha
  | [x], _, ha, hb, _ => by
    rw [List.mem_singleton] at ha hb
    rw [ha, hb] at h
    exact absurd h (lt_irrefl _)
  | x :: y :: l, hs, ha, hb, hn => by
    rw [List.pairwise_cons] at hs
    have hxy := hs.1 y (by simp)
    have ih := find_between h1 h2 h (y :: l) hs.2
    have hyl : ∀ z ∈ y :: l, y.pos ≤ z.pos := by
      intro z hz
      rcases List.mem_cons.1 hz with rfl | hz
      · exact le_rfl
      · exact ((List.pairwise_cons.1 hs.2).1 z hz).le
    rw [List.map_cons, List.map_cons, find]
    by_cases hax : a = x
    · subst hax
      have hby : b = y := by
        have hbl : b ∈ y :: l := by
          rcases List.mem_cons.1 hb with e | e
          · rw [e] at h; exact absurd h (lt_irrefl _)
          · exact e
        rcases List.mem_cons.1 hbl with e | e
        · exact e
        · have h3 := (List.pairwise_cons.1 hs.2).1 b e
          rcases hn y (by simp) with h4 | h4
          · exact absurd hxy (not_lt.2 h4)
          · exact absurd h3 (not_lt.2 h4)
      subst hby
      rw [if_pos ⟨h1, h2⟩]
    · have hal : a ∈ y :: l := by
        rcases List.mem_cons.1 ha with e | e
        · exact absurd e hax
        · exact e
      have hbl : b ∈ y :: l := by
        rcases List.mem_cons.1 hb with e | e
        · have h3 := hyl a hal
          rw [e] at h
          linarith
        · exact e
      by_cases hp : x.pos ≤ p ∧ p ≤ y.pos
      · rw [if_pos hp]
        have h3 := hyl a hal
        have h4 : p = y.pos := le_antisymm hp.2 (h3.trans h1)
        have h5 : a = y := by
          rcases List.mem_cons.1 hal with e | e
          · exact e
          · have := (List.pairwise_cons.1 hs.2).1 a e
            linarith
        rw [mix_right h4 hxy, mix_left (by rw [h5]; exact h4) h, h5]
      · rw [if_neg hp]
        exact ih hal hbl fun c hc => hn c (List.mem_cons_of_mem _ hc)

/-- There is a colour exactly from the first to the last key. -/
theorem find_some {p : K} : ∀ l : List (Key K), l.Pairwise (fun x y => x.pos ≤ y.pos) → 1 < l.length → ((find p l (l.map (·.pos))).isSome = true ↔ (∃ a ∈ l, a.pos ≤ p) ∧ ∃ b ∈ l, p ≤ b.pos)
  | [], _, h => by simp at h
  | [x], _, h => by simp at h
  | [x, y], hs, _ => by
    have hxy : x.pos ≤ y.pos := (List.pairwise_cons.1 hs).1 y (by simp)
    rw [List.map_cons, List.map_cons, find]
    by_cases hp : x.pos ≤ p ∧ p ≤ y.pos
    · rw [if_pos hp]
      exact ⟨fun _ => ⟨⟨x, by simp, hp.1⟩, y, by simp, hp.2⟩, fun _ => rfl⟩
    · rw [if_neg hp]
      constructor
      · intro h
        simp [find] at h
      · rintro ⟨⟨a, ha, h1⟩, b, hb, h2⟩
        exfalso
        apply hp
        constructor
        · rcases List.mem_cons.1 ha with rfl | ha
          · exact h1
          · rw [List.mem_singleton] at ha
            exact hxy.trans (ha ▸ h1)
        · rcases List.mem_cons.1 hb with rfl | hb
          · exact h2.trans hxy
          · rw [List.mem_singleton] at hb
            exact hb ▸ h2
  | x :: y :: z :: l, hs, _ => by
    rw [List.pairwise_cons] at hs
    have ih := find_some (p := p) (y :: z :: l) hs.2 (by simp)
    have hxy : x.pos ≤ y.pos := hs.1 y (by simp)
    rw [List.map_cons, List.map_cons, find]
    by_cases hp : x.pos ≤ p ∧ p ≤ y.pos
    · rw [if_pos hp]
      exact ⟨fun _ => ⟨⟨x, by simp, hp.1⟩, y, by simp, hp.2⟩, fun _ => rfl⟩
    · rw [if_neg hp, ← List.map_cons, ih]
      constructor
      · rintro ⟨⟨a, ha, h1⟩, b, hb, h2⟩
        exact ⟨⟨a, List.mem_cons_of_mem _ ha, h1⟩, b, List.mem_cons_of_mem _ hb, h2⟩
      · rintro ⟨⟨a, ha, h1⟩, b, hb, h2⟩
        have hxp : x.pos ≤ p := by
          rcases List.mem_cons.1 ha with rfl | ha
          · exact h1
          · exact (hs.1 a ha).trans h1
        have hyp : y.pos < p := not_le.1 fun h => hp ⟨hxp, h⟩
        refine ⟨⟨y, by simp, hyp.le⟩, ?_⟩
        rcases List.mem_cons.1 hb with rfl | hb
        · exact ⟨y, by simp, h2.trans hxy⟩
        · exact ⟨b, hb, h2⟩

/-- The colour at a key. -/
theorem find_key {k : Key K} : ∀ l : List (Key K), l.Pairwise (fun x y => x.pos < y.pos) → 1 < l.length → k ∈ l → find k.pos l (l.map (·.pos)) = some k.color
  | [], _, h, _ => by simp at h
  | [x], _, h, _ => by simp at h
  | x :: y :: l, hs, _, hk => by
    rw [List.pairwise_cons] at hs
    have hxy := hs.1 y (by simp)
    rw [List.map_cons, List.map_cons, find]
    rcases List.mem_cons.1 hk with e | hk
    · rw [if_pos ⟨by rw [e], by rw [e]; exact hxy.le⟩, mix_left (by rw [e]) hxy, e]
    · rcases List.mem_cons.1 hk with e | hk'
      · rw [if_pos ⟨by rw [e]; exact hxy.le, by rw [e]⟩, mix_right (by rw [e]) hxy, e]
      · have h1 := (List.pairwise_cons.1 hs.2).1 k hk'
        rw [if_neg fun h => absurd h.2 (not_le.2 h1)]
        have hl : 1 < (y :: l).length := by
          have := List.length_pos_of_mem hk'
          simp only [List.length_cons]
          omega
        exact find_key (y :: l) hs.2 hl hk

theorem Made.strict {l : List (Key K)} {m : Map K} (h : Made l m) (hd : (l.map (·.pos)).Nodup) : m.keys.Pairwise fun a b => a.pos < b.pos := by
  have h1 : (m.keys.map (·.pos)).Nodup := (h.perm.map _).nodup_iff.2 hd
  exact (h.sorted.and (List.pairwise_map.1 h1)).imp fun h => lt_of_le_of_ne h.1 h.2

theorem Made.ofKeys {sort : List (Key K) → List (Key K)} (hs : Sorts sort) (ks : List (Key K)) : Made (accepted ks) ((⟨[], []⟩ : Map K).addAll sort ks) := by
  have := Made.addAll hs ks Made.empty
  rwa [List.nil_append] at this

theorem getColor_in {m : Map K} {p : K} (h0 : 0 ≤ p) (h1 : p ≤ 1) : m.getColor p = find p m.keys m.intervals := if_pos ⟨h0, h1⟩

theorem mem_accepted {ks : List (Key K)} {k : Key K} : k ∈ accepted ks ↔ k ∈ ks ∧ 0 ≤ k.pos ∧ k.pos ≤ 1 := by
  unfold accepted
  rw [List.mem_filter, decide_eq_true_eq]

theorem two_le {l : List (Key K)} {a b : Key K} (ha : a ∈ l) (hb : b ∈ l) (h : a.pos < b.pos) : 1 < l.length := by
  match l, ha, hb with
  | [x], ha, hb =>
    rw [List.mem_singleton] at ha hb
    rw [ha, hb] at h
    exact absurd h (lt_irrefl _)
  | _ :: _ :: _, _, _ => simp

theorem mix_part {m n : ℕ} (hm : m ≤ 255) (hn : n ≤ 255) {u v : K} (hu : 0 ≤ u) (hv : 0 ≤ v) (h : u + v ≤ 1) : 0 ≤ ((m : K) * u + (n : K) * v) / 255 ∧ ((m : K) * u + (n : K) * v) / 255 ≤ 1 := by
  have hm' : (m : K) ≤ 255 := by exact_mod_cast hm
  have hn' : (n : K) ≤ 255 := by exact_mod_cast hn
  have h1 : (m : K) * u ≤ 255 * u := mul_le_mul_of_nonneg_right hm' hu
  have h2 : (n : K) * v ≤ 255 * v := mul_le_mul_of_nonneg_right hn' hv
  constructor
  · exact div_nonneg (add_nonneg (mul_nonneg (Nat.cast_nonneg _) hu) (mul_nonneg (Nat.cast_nonneg _) hv)) (by norm_num)
  · rw [div_le_one (by norm_num)]
    linarith

theorem mix_proper (p x y : K) {a b : Key K} (ha : a.Bytes) (hb : b.Bytes) : (mix p x y a b).Proper := by
  obtain ⟨a1, a2, a3, a4⟩ := ha
  obtain ⟨b1, b2, b3, b4⟩ := hb
  have key : ∃ u v : K, 0 ≤ u ∧ 0 ≤ v ∧ u + v ≤ 1 ∧ mix p x y a b =
      ⟨((a.r : K) * u + (b.r : K) * v) / 255, ((a.g : K) * u + (b.g : K) * v) / 255, ((a.b : K) * u + (b.b : K) * v) / 255, 1 - ((a.a : K) * u + (b.a : K) * v) / 255⟩ := by
    by_cases h : |x - p| + |y - p| = 0
    · have h1 : |x - p| = 0 := le_antisymm (by linarith [abs_nonneg (y - p)]) (abs_nonneg _)
      have h2 : |y - p| = 0 := le_antisymm (by linarith [abs_nonneg (x - p)]) (abs_nonneg _)
      refine ⟨0, 0, le_rfl, le_rfl, by norm_num, ?_⟩
      unfold mix
      simp [h1, h2]
    · refine ⟨|y - p| / (|x - p| + |y - p|), |x - p| / (|x - p| + |y - p|), ?_, ?_, ?_, ?_⟩
      · exact div_nonneg (abs_nonneg _) (add_nonneg (abs_nonneg _) (abs_nonneg _))
      · exact div_nonneg (abs_nonneg _) (add_nonneg (abs_nonneg _) (abs_nonneg _))
      · rw [← add_div, add_comm, div_self h]
      · unfold mix
        simp only
        rw [if_pos h, if_pos h]
  obtain ⟨u, v, hu, hv, huv, e⟩ := key
  rw [e]
  have h4 := mix_part a4 b4 hu hv huv
  exact ⟨mix_part a1 b1 hu hv huv, mix_part a2 b2 hu hv huv, mix_part a3 b3 hu hv huv, by simp only; linarith, by simp only; linarith⟩

theorem find_proper {p : K} {c : Color K} : ∀ (l : List (Key K)) (xs : List K), (∀ k ∈ l, k.Bytes) → find p l xs = some c → c.Proper
  | [], _, _, h => by simp [find] at h
  | [_], _, _, h => by simp [find] at h
  | _ :: _ :: _, [], _, h => by simp [find] at h
  | _ :: _ :: _, [_], _, h => by simp [find] at h
  | a :: b :: l, x :: y :: xs, hb, h => by
    rw [find] at h
    split at h
    · cases h
      exact mix_proper p x y (hb a (by simp)) (hb b (by simp))
    · exact find_proper (b :: l) (y :: xs) (fun k hk => hb k (List.mem_cons_of_mem _ hk)) h

end

section
variable {K : Type} [Field K] [LinearOrder K] [IsStrictOrderedRing K] [FloorSemiring K]

theorem byte_near {x : K} (h0 : 0 ≤ x) : |(byte x : K) / 255 - x| ≤ 1 / 510 := by
  unfold byte
  have h1 : (0 : K) ≤ x * 255 + 1 / 2 := by positivity
  have h2 := Nat.floor_le h1
  have h3 := Nat.lt_floor_add_one (x * 255 + 1 / 2)
  rw [abs_le]
  constructor
  · rw [neg_le_sub_iff_le_add, ← sub_le_iff_le_add, le_div_iff₀ (by norm_num)]
    linarith
  · rw [sub_le_iff_le_add, div_le_iff₀ (by norm_num)]
    linarith

theorem byte_le {x : K} (h1 : x ≤ 1) : byte x ≤ 255 := by
  unfold byte
  have : ⌊x * 255 + 1 / 2⌋₊ < 256 := by
    rw [Nat.floor_lt' (by norm_num)]
    push_cast
    linarith
  omega

theorem key_near {c : Color K} (hc : c.Proper) (p : K) : (c.key p).color.Near (1 / 510) c := by
  obtain ⟨h1, h2, h3, h4⟩ := hc
  refine ⟨byte_near h1.1, byte_near h2.1, byte_near h3.1, ?_⟩
  have hb := byte_le h4.2
  have e : 1 - ((255 - byte c.transparency : ℕ) : K) / 255 = (byte c.transparency : K) / 255 := by
    rw [Nat.cast_sub hb]
    push_cast
    field_simp
    ring
  change |1 - ((255 - byte c.transparency : ℕ) : K) / 255 - c.transparency| ≤ 1 / 510
  rw [e]
  exact byte_near h4.1

theorem key_bytes {c : Color K} (hc : c.Proper) (p : K) : (c.key p).Bytes := ⟨byte_le hc.1.2, byte_le hc.2.1.2, byte_le hc.2.2.1.2, Nat.sub_le _ _⟩

theorem steps_length (rnd : K → K) (s : K) : ∀ (cs : List (Color K)) (a : K), (steps rnd s a cs).length = cs.length := by
  intro cs
  induction cs with
  | nil => exact fun a => rfl
  | cons c cs ih => exact fun a => by rw [steps, List.length_cons, List.length_cons, ih]

theorem steps_get (s : K) : ∀ (cs : List (Color K)) (a : K) (i : ℕ) (c : Color K), cs[i]? = some c → (steps id s a cs)[i]? = some (c.key (a + (i + 1) * s)) := by
  intro cs
  induction cs with
  | nil => intro a i c h; simp at h
  | cons d cs ih =>
    intro a i c h
    rw [steps]
    cases i with
    | zero =>
      rw [List.getElem?_cons_zero, Option.some.injEq] at h
      rw [List.getElem?_cons_zero, h]
      simp
    | succ i =>
      rw [List.getElem?_cons_succ] at h
      rw [List.getElem?_cons_succ, ih _ i c h]
      congr 2
      simp only [id]
      push_cast
      ring

end

end Simox.Clr
