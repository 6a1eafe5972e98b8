import Verif.CSpace.Lemmas
import Verif.CSpace.Spec

namespace Simox.CSpace

open Real Classical Spec

variable {Q : Type}

/-! ## isPathValid -/

/-- A reference into the part of the buffer that calls at depth `idx` do not overwrite. -/
def Ref.Below (idx : Nat) : Ref Q → Prop
  | .ext _ => True
  | .tmp i => i ≤ idx

theorem Ref.get_congr {idx : Nat} {r : Ref Q} (h : r.Below idx) {b1 b2 : Nat → Q}
    (e : ∀ j, j ≤ idx → b1 j = b2 j) : r.get b1 = r.get b2 := by
  cases r with
  | ext q => rfl
  | tmp i => exact e i h

theorem Ref.Below.mono {idx idx' : Nat} {r : Ref Q} (h : r.Below idx) (hl : idx ≤ idx') :
    r.Below idx' := by
  cases r with
  | ext q => trivial
  | tmp i => exact Nat.le_trans h hl

theorem way_append {dist : Q → Q → ℝ} {valid : Q → Prop} {δ : ℝ} {a m b : Q} {l1 l2 : List Q}
    (h1 : ValidWay dist valid δ a m l1) (h2 : ValidWay dist valid δ m b l2) :
    ValidWay dist valid δ a b (l1 ++ l2) := by
  obtain ⟨p1, s1, v1⟩ := h1
  obtain ⟨p2, s2, v2⟩ := h2
  have hne : l2 ≠ [] := by intro e; simp [e] at p2
  refine ⟨?_, ?_, ?_⟩
  · rw [List.getLast?_append, p2]; rfl
  · rw [← List.cons_append]
    refine List.isChain_append.mpr ⟨s1, ?_, ?_⟩
    · exact (List.isChain_cons.mp s2).2
    · intro x hx y hy
      have : x = m := by
        rw [List.getLast?_cons, p1] at hx; simpa using hx.symm
      subst this
      exact (List.isChain_cons.mp s2).1 y hy
  · intro c hc
    rcases List.mem_append.mp hc with h | h
    · exact v1 c h
    · exact v2 c h

/-- Buffer discipline and soundness of the recursive check. -/
theorem isPathValidMem_sound (G : Geo Q) (valid : Q → Prop) (dcd : ℝ) (stop : Nat → Bool)
    (limit : Nat) : ∀ (m idx : Nat), limit - idx ≤ m → ∀ (q1 q2 : Ref Q) (buf : Nat → Q) (k : Nat),
    q1.Below idx → q2.Below idx →
    (∀ j, j ≤ idx → (G.isPathValidMem valid dcd stop limit idx q1 q2 buf k).2.1 j = buf j) ∧
    ((G.isPathValidMem valid dcd stop limit idx q1 q2 buf k).1 = true →
      ∃ l, ValidWay G.dist valid (dcd * 1.001) (q1.get buf) (q2.get buf) l) := by
  intro m
  induction m with
  | zero =>
    intro idx hm q1 q2 buf k _ _
    rw [Geo.isPathValidMem.eq_def]
    split
    · simp
    · simp only
      split
      · refine ⟨fun _ _ => rfl, fun hv => ⟨[q2.get buf], rfl, ?_, ?_⟩⟩
        · simp; assumption
        · simpa using hv
      · rw [dif_pos (by omega)]
        simp
  | succ m ih =>
    intro idx hm q1 q2 buf k h1 h2
    rw [Geo.isPathValidMem.eq_def]
    split
    · simp
    · simp only
      split
      · refine ⟨fun _ _ => rfl, fun hv => ⟨[q2.get buf], rfl, ?_, ?_⟩⟩
        · simp; assumption
        · simpa using hv
      · split
        · simp
        · rename_i hlim
          generalize hb1 : (fun j => if j = idx + 1
            then G.generateNewConfig (q2.get buf) (q1.get buf)
              (G.dist (q1.get buf) (q2.get buf) * 0.5) (G.dist (q1.get buf) (q2.get buf))
            else buf j) = buf1
          have hbuf : ∀ j, j ≤ idx → buf1 j = buf j := by
            intro j hj; rw [← hb1]; simp only; rw [if_neg (by omega)]
          obtain ⟨a1, a2⟩ := ih (idx + 1) (by omega) q1 (.tmp (idx + 1)) buf1 (k + 1)
            (h1.mono (by omega)) (Nat.le_refl _)
          generalize hr1 : G.isPathValidMem valid dcd stop limit (idx + 1) q1 (.tmp (idx + 1)) buf1
            (k + 1) = r1 at a1 a2
          split
          · rename_i hr
            obtain ⟨b1, b2⟩ := ih (idx + 1) (by omega) (.tmp (idx + 1)) q2 r1.2.1 r1.2.2
              (Nat.le_refl _) (h2.mono (by omega))
            constructor
            · intro j hj
              rw [b1 j (by omega), a1 j (by omega), hbuf j hj]
            · intro hv
              obtain ⟨l1, w1⟩ := a2 hr
              obtain ⟨l2, w2⟩ := b2 hv
              rw [Ref.get_congr h1 hbuf] at w1
              have e2 : q2.get r1.2.1 = q2.get buf :=
                Ref.get_congr h2 (fun j hj => by rw [a1 j (by omega), hbuf j hj])
              have em : (Ref.tmp (idx + 1) : Ref Q).get r1.2.1 = (Ref.tmp (idx + 1) : Ref Q).get buf1 :=
                a1 (idx + 1) (Nat.le_refl _)
              rw [e2, em] at w2
              exact ⟨l1 ++ l2, way_append w1 w2⟩
          · rename_i hr
            refine ⟨fun j hj => by rw [a1 j (by omega), hbuf j hj], fun hv => absurd hv hr⟩

/-- Midpoint as computed by the code. -/
theorem mid_eq (G : Geo Q) {d : ℝ} (hd : 0 < d) (a b : Q) :
    G.generateNewConfig b a (d * 0.5) d = G.interp a b (1 / 2) := by
  unfold Geo.generateNewConfig
  have h1 : ¬ d < 0 := by linarith
  have h2 : ¬ d ≤ d * 0.5 := by norm_num; linarith
  have h3 : d * 0.5 / d = 1 / 2 := by field_simp; norm_num
  simp only [h1, h2, h3, if_false]

/-- Completeness: without stop request, and with enough depth, a negative answer has a reason. -/
theorem isPathValidMem_complete {G : Geo Q} (hG : GeoOK G) (valid : Q → Prop) {dcd : ℝ}
    (hd : 0 < dcd) (limit : Nat) : ∀ (m idx : Nat), limit - idx = m + 1 →
    ∀ (q1 q2 : Ref Q) (buf : Nat → Q) (k : Nat), q1.Below idx → q2.Below idx →
    G.dist (q1.get buf) (q2.get buf) ≤ dcd * 1.001 * 2 ^ m →
    (G.isPathValidMem valid dcd (fun _ => false) limit idx q1 q2 buf k).1 = false →
    ∃ c, Tested (fun a b => G.interp a b (1 / 2)) (q1.get buf) (q2.get buf) c ∧ ¬ valid c := by
  intro m
  induction m with
  | zero =>
    intro idx hm q1 q2 buf k _ _ hdist hr
    rw [Geo.isPathValidMem.eq_def] at hr
    simp only [Bool.false_eq_true, if_false] at hr
    rw [if_pos (by simpa using hdist)] at hr
    exact ⟨_, .endpoint _ _, by simpa using hr⟩
  | succ m ih =>
    intro idx hm q1 q2 buf k h1 h2 hdist hr
    rw [Geo.isPathValidMem.eq_def] at hr
    simp only [Bool.false_eq_true, if_false] at hr
    split at hr
    · exact ⟨_, .endpoint _ _, by simpa using hr⟩
    · rename_i hbig
      rw [dif_neg (by omega)] at hr
      have hpos : 0 < G.dist (q1.get buf) (q2.get buf) := by nlinarith
      rw [mid_eq G hpos] at hr
      generalize hb1 : (fun j => if j = idx + 1
            then G.interp (q1.get buf) (q2.get buf) (1 / 2)
            else buf j) = buf1 at hr
      have hbuf : ∀ j, j ≤ idx → buf1 j = buf j := by
        intro j hj; rw [← hb1]; simp only; rw [if_neg (by omega)]
      have hmid : (Ref.tmp (idx + 1) : Ref Q).get buf1 = G.interp (q1.get buf) (q2.get buf) (1 / 2) := by
        rw [← hb1]; simp [Ref.get]
      have a0 := ih (idx + 1) (by omega) q1 (.tmp (idx + 1)) buf1 (k + 1)
        (h1.mono (by omega)) (Nat.le_refl _)
      have a1 := (isPathValidMem_sound G valid dcd (fun _ => false) limit (limit - (idx + 1)) (idx + 1)
        (Nat.le_refl _) q1 (.tmp (idx + 1)) buf1 (k + 1) (h1.mono (by omega)) (Nat.le_refl _)).1
      have e1 := Ref.get_congr h1 hbuf
      generalize hr1 : G.isPathValidMem valid dcd (fun _ => false) limit (idx + 1) q1
        (.tmp (idx + 1)) buf1 (k + 1) = r1 at hr a0 a1
      rw [e1, hmid] at a0
      split at hr
      · have b0 := ih (idx + 1) (by omega) (.tmp (idx + 1)) q2 r1.2.1 r1.2.2
          (Nat.le_refl _) (h2.mono (by omega))
        have e2 : q2.get r1.2.1 = q2.get buf :=
          Ref.get_congr h2 (fun j hj => by rw [a1 j (by omega), hbuf j hj])
        have em : (Ref.tmp (idx + 1) : Ref Q).get r1.2.1 = (Ref.tmp (idx + 1) : Ref Q).get buf1 :=
          a1 (idx + 1) (Nat.le_refl _)
        rw [e2, em, hmid] at b0
        obtain ⟨c, hc, hv⟩ := b0 (by
          rw [hG.right _ _ _ (by norm_num) (by norm_num)]; rw [pow_succ] at hdist; linarith) hr
        exact ⟨c, .right hc, hv⟩
      · rename_i hf
        obtain ⟨c, hc, hv⟩ := a0 (by
          rw [hG.left _ _ _ (by norm_num) (by norm_num)]; rw [pow_succ] at hdist; linarith)
          (by simpa using hf)
        exact ⟨c, .left hc, hv⟩

/-! ## createPathUntilInvalid -/

/-- Loop of `createPathUntilInvalid`. -/
theorem untilInvalidLoop_spec {G : Geo Q} (hG : GeoOK G) (validB validN : Q → Prop)
    (hBN : ∀ c, validB c → validN c) {dcd : ℝ} (hd : 0 < dcd) (ss : ℝ) (goal : Q) {orig : ℝ}
    (ho : 0 < orig) : ∀ (k : Nat) (tmp : Q) (nodeDist : ℝ) (r : PartialPath Q),
    G.dist tmp goal ≤ (k + 1) * dcd → 0 < G.dist tmp goal → G.dist tmp goal ≤ orig → r.added ≠ 1 →
    ∃ (res : PartialPath Q) (x p : List Q),
      (∀ fuel, k + 1 ≤ fuel →
        G.untilInvalidLoop validB validN dcd ss goal orig fuel tmp (G.dist tmp goal) nodeDist r =
          some res) ∧
      (tmp :: p).IsChain (fun u v => G.dist u v ≤ dcd) ∧ (∀ c ∈ p, validN c) ∧
      res.points = r.points ++ x ∧ x.Sublist p ∧
      (res.added = 1 → x.getLast? = some goal) ∧
      (res.added ≠ 1 → ¬ validN goal ∨ ∃ c, ¬ validB c ∧ G.dist c goal < orig) := by
  have near : ∀ (k : Nat) (tmp : Q) (nodeDist : ℝ) (r : PartialPath Q), G.dist tmp goal ≤ dcd →
      0 < G.dist tmp goal →
    ∃ (res : PartialPath Q) (x p : List Q),
      (∀ fuel, k + 1 ≤ fuel →
        G.untilInvalidLoop validB validN dcd ss goal orig fuel tmp (G.dist tmp goal) nodeDist r =
          some res) ∧
      (tmp :: p).IsChain (fun u v => G.dist u v ≤ dcd) ∧ (∀ c ∈ p, validN c) ∧
      res.points = r.points ++ x ∧ x.Sublist p ∧
      (res.added = 1 → x.getLast? = some goal) ∧
      (res.added ≠ 1 → ¬ validN goal ∨ ∃ c, ¬ validB c ∧ G.dist c goal < orig) := by
    intro k tmp nodeDist r hle hpos
    by_cases hv : validN goal
    · refine ⟨⟨r.points ++ [goal], 1⟩, [goal], [goal], ?_, by simpa using hle, by simpa using hv,
        rfl, List.Sublist.refl _, by simp, by simp⟩
      intro fuel hf
      obtain ⟨f, rfl⟩ : ∃ f, fuel = f + 1 := ⟨fuel - 1, by omega⟩
      simp [Geo.untilInvalidLoop, hle, hv]
    · refine ⟨⟨r.points, (orig - G.dist tmp goal) / orig⟩, [], [], ?_, by simp, by simp, by simp,
        List.Sublist.refl _, ?_, fun _ => Or.inl hv⟩
      · intro fuel hf
        obtain ⟨f, rfl⟩ : ∃ f, fuel = f + 1 := ⟨fuel - 1, by omega⟩
        simp [Geo.untilInvalidLoop, hle, hv]
      · intro h
        simp only at h
        rw [div_eq_one_iff_eq (by linarith)] at h
        linarith
  intro k
  induction k with
  | zero =>
    intro tmp nodeDist r hk hpos _ _
    exact near 0 tmp nodeDist r (by simpa using hk) hpos
  | succ k ih =>
    intro tmp nodeDist r hk hpos hor hr
    by_cases hle : G.dist tmp goal ≤ dcd
    · exact near (k + 1) tmp nodeDist r hle hpos
    · have hlt : dcd < G.dist tmp goal := not_le.mp hle
      have hgen : G.generateNewConfig goal tmp dcd (G.dist tmp goal) =
          G.interp tmp goal (dcd / G.dist tmp goal) := by
        unfold Geo.generateNewConfig
        simp only [not_lt.mpr hpos.le, if_false, hle]
      obtain ⟨s1, s2⟩ := step_dist hG tmp goal hd hlt.le
      generalize hl : G.interp tmp goal (dcd / G.dist tmp goal) = tmp' at s1 s2 hgen
      by_cases hv : validB tmp'
      · by_cases hn : nodeDist + dcd ≥ ss
        · obtain ⟨res, x, p, q1, q2, q3, q4, q5, q6, q7⟩ := ih tmp' (nodeDist + dcd - ss)
            ⟨r.points ++ [tmp'], (orig - G.dist tmp goal) / orig⟩
            (by rw [s2]; push_cast at hk; linarith) (by rw [s2]; linarith) (by rw [s2]; linarith)
            (by simp only; rw [Ne, div_eq_one_iff_eq (by linarith)]; intro h; linarith)
          refine ⟨res, tmp' :: x, tmp' :: p, ?_, ?_, ?_, ?_, q5.cons_cons _, ?_, q7⟩
          · intro fuel hf
            obtain ⟨f, rfl⟩ : ∃ f, fuel = f + 1 := ⟨fuel - 1, by omega⟩
            simp only [Geo.untilInvalidLoop, hle, if_false, hgen, hv, not_true_eq_false, hn, if_true]
            exact q1 f (by omega)
          · simp [s1, q2]
          · intro c hc
            rcases List.mem_cons.mp hc with rfl | hc
            · exact hBN _ hv
            · exact q3 c hc
          · rw [q4]; simp
          · intro h
            have := q6 h
            rw [List.getLast?_cons, this]; rfl
        · obtain ⟨res, x, p, q1, q2, q3, q4, q5, q6, q7⟩ := ih tmp' (nodeDist + dcd) r
            (by rw [s2]; push_cast at hk; linarith) (by rw [s2]; linarith) (by rw [s2]; linarith) hr
          refine ⟨res, x, tmp' :: p, ?_, ?_, ?_, q4, q5.trans (List.sublist_cons_self _ _), q6, q7⟩
          · intro fuel hf
            obtain ⟨f, rfl⟩ : ∃ f, fuel = f + 1 := ⟨fuel - 1, by omega⟩
            simp only [Geo.untilInvalidLoop, hle, if_false, hgen, hv, not_true_eq_false, hn]
            exact q1 f (by omega)
          · simp [s1, q2]
          · intro c hc
            rcases List.mem_cons.mp hc with rfl | hc
            · exact hBN _ hv
            · exact q3 c hc
      · refine ⟨r, [], [], ?_, by simp, by simp, by simp, List.Sublist.refl _, fun h => absurd h hr,
          fun _ => Or.inr ⟨tmp', hv, by rw [s2]; linarith⟩⟩
        intro fuel hf
        obtain ⟨f, rfl⟩ : ∃ f, fuel = f + 1 := ⟨fuel - 1, by omega⟩
        simp [Geo.untilInvalidLoop, hle, hgen, hv]

/-! ## Path length -/

theorem pathLength_eq {n : Nat} (S : Space n) (b : Bool) (l : List (Config n)) :
    pathLength S b l = polylineLength (fun x y => S.calcDist x y b) l := by
  induction l with
  | nil => rfl
  | cons a l ih =>
    cases l with
    | nil => rfl
    | cons c l => simp only [pathLength, polylineLength, ih]

theorem polyline_sum (dist : Q → Q → ℝ) (l : List Q) :
    (∑ i ∈ Finset.range (l.length - 1),
      match l[i]?, l[i + 1]? with
      | some a, some b => dist a b
      | _, _ => 0) = polylineLength dist l := by
  induction l with
  | nil => rfl
  | cons a l ih =>
    cases l with
    | nil => rfl
    | cons c l =>
      simp only [List.length_cons, Nat.add_sub_cancel] at ih ⊢
      rw [Finset.sum_range_succ']
      simp only [polylineLength, ← ih, List.getElem?_cons_succ, List.getElem?_cons_zero]
      rw [add_comm]

end Simox.CSpace
