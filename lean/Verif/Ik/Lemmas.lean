import Verif.Ik.Spec
import Verif.Ik.Angle
import Verif.Kin.Lemmas
import Verif.Kin.LemmasLim
import Verif.Kin.Props
import Verif.Jac.Props
import Mathlib.Tactic.Linarith

/-!
# Lemmas for inverse kinematics
-/

namespace Simox.Ik

open Matrix Kin Kin.Spec Jac Spec

/-! ## Errors -/

theorem getErrorPosition_eq (s : St Pose3) (g : Goal) :
    getErrorPosition s g = posError g.mode g.target.pos (s.pose g.obj).pos := by
  unfold getErrorPosition posError
  by_cases h : g.mode = flagOrientation
  · rw [if_pos h, h]
    simp [flagOrientation, Fin.sum_univ_three, Nat.testBit]
  · rw [if_neg h]
    simp only [hasX, hasY, hasZ, Fin.sum_univ_three]
    congr 1
    simp only [Pi.sub_apply, sq]
    split_ifs <;> simp_all

theorem isAngle_aa (aa : AngleAxes) (R : SO3) : IsAngle R (aa.angle R) :=
  ⟨aa.nonneg R, aa.le_pi R, aa.axis R, by have := aa.unit R; nlinarith, (aa.eq R).symm⟩

theorem isAngle_unique {R : SO3} {a b : ℝ} (ha : IsAngle R a) (hb : IsAngle R b) : a = b := by
  obtain ⟨a0, a1, u, hu, hR⟩ := ha
  obtain ⟨b0, b1, w, hw, hR'⟩ := hb
  rw [← axisAngle_angle (u := u) (by nlinarith) a0 a1, ← axisAngle_angle (u := w) (by nlinarith) b0 b1,
    ← hR, ← hR']

theorem getErrorRotation_spec (aa : AngleAxes) (s : St Pose3) (g : Goal) :
    IsRotError g.mode g.target.rot (s.pose g.obj).rot (getErrorRotation aa s g) := by
  unfold IsRotError getErrorRotation
  rw [hasO]
  by_cases h : g.mode.testBit 3 = true
  · simp only [h, if_true, Bool.not_true]
    exact ⟨_, by simp [Kin.mul_def, Kin.inv_def], isAngle_aa aa _⟩
  · simp [h]

theorem isRotError_unique {mode : Nat} {t c : SO3} {a b : ℝ} (ha : IsRotError mode t c a)
    (hb : IsRotError mode t c b) : a = b := by
  unfold IsRotError at ha hb
  by_cases h : mode.testBit 3 = true
  · rw [if_pos h] at ha hb
    obtain ⟨D, hD, ha⟩ := ha
    obtain ⟨E, hE, hb⟩ := hb
    have : D = E := mul_right_cancel (hD.trans hE.symm)
    subst this
    exact isAngle_unique ha hb
  · rw [if_neg h] at ha hb
    rw [ha, hb]

theorem met_iff (aa : AngleAxes) (s : St Pose3) (g : Goal) :
    Met s g ↔ ¬(getErrorPosition s g > g.tolPos ∨ getErrorRotation aa s g > g.tolRot) := by
  rw [getErrorPosition_eq]
  unfold Met
  rw [not_or, not_lt, not_lt]
  refine and_congr Iff.rfl ⟨?_, fun h => ⟨_, getErrorRotation_spec aa s g, h⟩⟩
  rintro ⟨a, ha, hle⟩
  rwa [isRotError_unique (getErrorRotation_spec aa s g) ha]

open Classical in
theorem check_fold (aa : AngleAxes) (s : St Pose3) : ∀ (goals : List Goal) (b : Bool),
    goals.foldl (fun result g =>
      if getErrorPosition s g > g.tolPos ∨ getErrorRotation aa s g > g.tolRot then false else result) b
      = true ↔ b = true ∧ AllMet s goals
  | [], b => by simp [AllMet]
  | g :: gs, b => by
    rw [List.foldl_cons, check_fold aa s gs]
    by_cases h : getErrorPosition s g > g.tolPos ∨ getErrorRotation aa s g > g.tolRot
    · rw [if_pos h]
      have : ¬Met s g := fun hm => (met_iff aa s g).1 hm h
      simp [AllMet, this]
    · rw [if_neg h]
      have : Met s g := (met_iff aa s g).2 h
      simp [AllMet, this]

theorem check_iff (aa : AngleAxes) (s : St Pose3) (goals : List Goal) :
    checkTolerances aa s goals = true ↔ AllMet s goals := by
  unfold checkTolerances
  rw [check_fold]
  simp

theorem mean_fold (s : St Pose3) : ∀ (goals : List Goal) (a : ℝ),
    goals.foldl (fun res g => res + getErrorPosition s g) a =
      a + (goals.map fun g => posError g.mode g.target.pos (s.pose g.obj).pos).sum
  | [], a => by simp
  | g :: gs, a => by
    rw [List.foldl_cons, mean_fold s gs, getErrorPosition_eq]
    simp; ring

theorem getMean_eq (s : St Pose3) (goals : List Goal) : getMeanErrorPosition s goals = meanError goals s := by
  unfold getMeanErrorPosition meanError
  by_cases h : goals.length = 0
  · rw [if_pos h, h]; simp
  · rw [if_neg h, mean_fold]; simp

theorem stepNorm_eq (d : List ℝ) : stepNorm d = length d := by
  unfold stepNorm length
  simp only [sq]

/-! ## Setting joints -/

/-- The value a list of joint values has for a node. -/
noncomputable def valOf (nodes : List Nat) (v : List ℝ) (n : Nat) : ℝ := (lastFor (nodes.zip v) n).getD 0

theorem fk_pose {r : Robot Pose3} {s t : St Pose3} (hs : FK r s) (ht : FK r t) (hb : s.base = t.base)
    (hv : s.value = t.value) {j : Nat} (hj : j ∈ r.tree.ids) : s.pose j = t.pose j := by
  obtain ⟨l, hl, -⟩ := exists_chain r.tree j hj
  rw [hs j l hl, ht j l hl, hb, hv]

theorem st_ext {s t : St Pose3} (h1 : s.base = t.base) (h2 : s.value = t.value) (h3 : s.pose = t.pose) : s = t := by
  cases s; cases t; simp_all

theorem setTo_unique {r : Robot Pose3} {nodes : List Nat} {v : Nat → ℝ} {s t t' : St Pose3}
    (h : SetTo r nodes v s t) (h' : SetTo r nodes v s t') : t = t' := by
  obtain ⟨b, f, o, i, e⟩ := h
  obtain ⟨b', f', o', i', e'⟩ := h'
  have hv : t.value = t'.value := by
    funext n
    by_cases hn : n ∈ nodes
    · rw [i n hn, i' n hn]
    · rw [e n hn, e' n hn]
  refine st_ext (b.trans b'.symm) hv ?_
  funext j
  by_cases hj : j ∈ r.tree.ids
  · exact fk_pose f f' (b.trans b'.symm) hv hj
  · rw [o j hj, o' j hj]

theorem setTo_absorb {r : Robot Pose3} {nodes : List Nat} {v v' : Nat → ℝ} {s t u : St Pose3}
    (h : SetTo r nodes v s t) (h' : SetTo r nodes v' s u) : SetTo r nodes v u t := by
  obtain ⟨b, f, o, i, e⟩ := h
  obtain ⟨b', f', o', i', e'⟩ := h'
  exact ⟨b.trans b'.symm, f, fun j hj => (o j hj).trans (o' j hj).symm, i,
    fun n hn => (e n hn).trans (e' n hn).symm⟩

theorem setTo_congr {r : Robot Pose3} {nodes : List Nat} {v w : Nat → ℝ} {s t : St Pose3}
    (hvw : ∀ n ∈ nodes, v n = w n) (h : SetTo r nodes v s t) : SetTo r nodes w s t := by
  obtain ⟨b, f, o, i, e⟩ := h
  exact ⟨b, f, o, fun n hn => hvw n hn ▸ i n hn, e⟩

theorem lastFor_zip {nodes : List Nat} {v : List ℝ} {n : Nat} (hn : n ∈ nodes)
    (hl : v.length = nodes.length) : ∃ x, lastFor (nodes.zip v) n = some x := by
  cases h : lastFor (nodes.zip v) n with
  | some x => exact ⟨x, rfl⟩
  | none =>
    rw [lastFor_none] at h
    obtain ⟨i, hi, rfl⟩ := List.getElem_of_mem hn
    have : (nodes.zip v)[i]'(by simp [hl, hi]) ∈ nodes.zip v := List.getElem_mem _
    exact absurd (by simp) (h _ this)

theorem valOf_zip {nodes : List Nat} (hd : nodes.Nodup) {v : List ℝ} {i n : Nat} {x : ℝ}
    (h1 : nodes[i]? = some n) (h2 : v[i]? = some x) (hl : v.length = nodes.length) :
    valOf nodes v n = x := by
  have hk : Keys (nodes.zip v) := by
    unfold Keys
    rw [List.map_fst_zip (by omega)]
    exact hd
  have hm : (n, x) ∈ nodes.zip v := by
    refine List.mem_of_getElem? (i := i) ?_
    rw [List.getElem?_zip_eq_some]
    exact ⟨h1, h2⟩
  unfold valOf
  rw [lastFor_keys hk hm]
  rfl

theorem update_ok {r : Robot Pose3} {ns : NodeSet} (hu : Usable r ns) {fuel : Nat} (hf : 0 < fuel)
    {m : List (Nat × ℝ)} (hm : ∀ e ∈ m, e.1 ∈ ns.nodes) {s : St Pose3} (hs : FK r s) :
    ∃ s', ns.update r fuel (m.foldl (fun s e => setNoUpdate r e.1 e.2 s) s) = some s' ∧
      s'.base = s.base ∧ FK r s' ∧ (∀ j, j ∉ r.tree.ids → s'.pose j = s.pose j) ∧
      ∀ n, s'.value n = match lastFor m n with
        | some q => stored (r.lim n) q
        | none => s.value n := by
  obtain ⟨fuel, rfl⟩ := Nat.exists_eq_succ_of_ne_zero hf.ne'
  have key : ∃ s', ns.update r (fuel + 1) (m.foldl (fun s e => setNoUpdate r e.1 e.2 s) s) = some s' ∧
      s'.base = s.base ∧ (∀ j, j ∉ r.tree.ids → s'.pose j = s.pose j) ∧
      s'.value = (m.foldl (fun s e => setNoUpdate r e.1 e.2 s) s).value := by
    unfold NodeSet.update
    rcases hr : ns.root with _ | k
    · refine ⟨_, rfl, ?_, fun j hj => ?_, rfl⟩
      · rw [apply_base, fold_set_base]
      · show updTree _ _ _ _ _ j = _
        rw [updTree_outside _ _ _ _ _ _ hj, fold_set_pose]
    · simp only
      rw [updatePose_noprop (hu.quiet k hr)]
      refine ⟨_, rfl, ?_, fun j hj => ?_, rfl⟩
      · exact fold_set_base r _ _
      · show updAt _ _ _ _ _ _ j = _
        rw [updAt_outside _ _ _ _ _ _ _ (fun h => hj (sub_subset _ _ _ h)), fold_set_pose]
  obtain ⟨s', h1, h2, h3, h4⟩ := key
  exact ⟨s', h1, h2, update_fk hu.names hu.root hs hm h1, h3,
    fun n => by rw [h4, fold_set_value]; rfl⟩

theorem set_ok {r : Robot Pose3} {ns : NodeSet} (hu : Usable r ns) {fuel : Nat} (hf : 0 < fuel)
    {v : List ℝ} (hl : v.length = ns.nodes.length) {s : St Pose3} (hs : FK r s) :
    ∃ s', ns.setJointValues r fuel v s = .ok s' ∧ SetTo r ns.nodes (valOf ns.nodes v) s s' := by
  obtain ⟨s', h1, h2, h3, h4, h5⟩ := update_ok hu hf (m := ns.nodes.zip v)
    (fun e he => (List.of_mem_zip he).1) hs
  refine ⟨s', ?_, h2, h3, h4, fun n hn => ?_, fun n hn => ?_⟩
  · unfold NodeSet.setJointValues
    rw [if_neg (by simp [hl]), h1]
  · obtain ⟨x, hx⟩ := lastFor_zip hn hl
    rw [h5]
    simp [hx, valOf]
  · have : lastFor (ns.nodes.zip v) n = none :=
      lastFor_none.2 fun e he h => hn (h ▸ (List.of_mem_zip he).1)
    rw [h5, this]

theorem inLimits_stored {l : Lim} {q : ℝ} (h : l.limitless = true ∨ l.enforce = true → l.lo ≤ q ∧ q ≤ l.hi) :
    stored l q = q := by
  by_cases hh : l.limitless = true ∨ l.enforce = true
  · exact Jac.stored_id (h hh).1 (h hh).2
  · rw [not_or] at hh
    unfold stored
    simp [hh.1, hh.2]

theorem stored_inLimits {l : Lim} (h1 : l.lo ≤ l.hi)
    (h2 : l.limitless = true → 0 ≤ l.hi ∧ l.lo + 2 * Real.pi ≤ l.hi) (q : ℝ) :
    l.limitless = true ∨ l.enforce = true → l.lo ≤ stored l q ∧ stored l q ≤ l.hi := by
  intro h
  by_cases hl : l.limitless = true
  · exact ⟨stored_ge hl q, stored_le hl (h2 hl).2 (h2 hl).1 q⟩
  · have he : l.enforce = true := h.resolve_left hl
    have : stored l q = clamp l.lo l.hi q := by unfold stored; simp [hl, he]
    rw [this]
    have := clamp_nearest h1 q
    exact ⟨this.1, this.2.1⟩

/-- The joints of a state within limits are set to the values they have. -/
theorem self_setTo {r : Robot Pose3} {nodes : List Nat} {s : St Pose3} (hs : FK r s)
    (hl : InLimits r nodes s) : SetTo r nodes s.value s s :=
  ⟨rfl, hs, fun _ _ => rfl, fun n hn => (inLimits_stored (hl n hn)).symm, fun _ _ => rfl⟩

theorem inLimits_of_setTo {r : Robot Pose3} {nodes : List Nat} (hg : GoodLimits r nodes) {v : Nat → ℝ}
    {s t : St Pose3} (h : SetTo r nodes v s t) : InLimits r nodes t := by
  intro n hn
  rw [h.2.2.2.1 n hn]
  exact stored_inLimits (hg n hn).1 (hg n hn).2 _

theorem valOf_map {nodes : List Nat} (hd : nodes.Nodup) (f : Nat → ℝ) {n : Nat} (hn : n ∈ nodes) :
    valOf nodes (nodes.map f) n = f n := by
  obtain ⟨i, hi, rfl⟩ := List.getElem_of_mem hn
  exact valOf_zip hd (i := i) (List.getElem?_eq_getElem hi) (by simp [hi]) (by simp)

theorem setTo_trans {r : Robot Pose3} {nodes : List Nat} {v w : Nat → ℝ} {s t u : St Pose3}
    (h : SetTo r nodes v s t) (h' : SetTo r nodes w t u) : SetTo r nodes w s u := by
  obtain ⟨b, f, o, i, e⟩ := h
  obtain ⟨b', f', o', i', e'⟩ := h'
  exact ⟨b'.trans b, f', fun j hj => (o' j hj).trans (o j hj), i', fun n hn => (e' n hn).trans (e n hn)⟩

/-! ## The loop -/

theorem moved_of {r : Robot Pose3} {nodes : List Nat} (hd : nodes.Nodup) {d : List ℝ} {s s1 : St Pose3}
    (hl : d.length = nodes.length)
    (h : SetTo r nodes (valOf nodes (List.zipWith (fun n x => s.value n + x) nodes d)) s s1) :
    Moved r nodes d s s1 := by
  refine ⟨hl, _, fun i n x h1 h2 => ?_, h⟩
  refine valOf_zip hd h1 ?_ (by simp [hl])
  rw [List.getElem?_zipWith, h1, h2]

theorem stepLoop_spec (r : Robot Pose3) (ns : NodeSet) (hu : Usable r ns) (fuel : Nat) (hf : 0 < fuel)
    (aa : AngleAxes) (goals : List Goal) (step : St Pose3 → Step)
    (hstep : ∀ s d, step s = .move d → d.length = ns.nodes.length) (minChange : ℝ) (chk : Bool) :
    ∀ (k : Nat) (best : List ℝ) (last : Option ℝ) (s : St Pose3), FK r s →
      best.length = ns.nodes.length → SetTo r ns.nodes (valOf ns.nodes best) s s →
      (∀ x, last = some x → x = meanError goals s) →
      match stepLoop r fuel ns aa goals step minChange chk k best last s with
      | .done true s' => ∃ l, Walk r ns.nodes step s (l ++ [s']) ∧ l.length < k ∧ AllMet s' goals ∧
          (∀ t ∈ l, ¬AllMet t goals) ∧
          (chk = true → ((if last.isSome then [s] else []) ++ l).Pairwise
            fun a b => meanError goals b ≤ meanError goals a)
      | .done false s' => ∃ l, Walk r ns.nodes step s l ∧ l.length ≤ k ∧ s' = final s l ∧
          (∀ t ∈ l, ¬AllMet t goals) ∧
          (chk = true → ((if last.isSome then [s] else []) ++ l).Pairwise
            fun a b => meanError goals b ≤ meanError goals a) ∧
          (l.length = k ∨ step s' = .invalid ∨
            ∃ d t, step s' = .move d ∧ Moved r ns.nodes d s' t ∧ ¬AllMet t goals ∧
              (length d < minChange ∨
                (chk = true ∧ (last.isSome ∨ 0 < l.length) ∧ meanError goals s' < meanError goals t)))
      | .throw s' => ∃ l, Walk r ns.nodes step s l ∧ l.length < k ∧ s' = final s l ∧
          (∀ t ∈ l, ¬AllMet t goals) ∧ step s' = .throw
      | .diverge => False := by
  intro k
  have hundo : ∀ (best : List ℝ) (s t : St Pose3) (v : Nat → ℝ), FK r t → best.length = ns.nodes.length →
      SetTo r ns.nodes (valOf ns.nodes best) s s → SetTo r ns.nodes v s t →
      undo r fuel ns best t = .done false s := by
    intro best s t v ht hb hs hst
    obtain ⟨s', h1, h2⟩ := set_ok hu hf hb ht
    unfold undo
    rw [h1]
    have := setTo_unique h2 (setTo_absorb hs hst)
    simp [this]
  induction k with
  | zero =>
    intro best last s hs hb hself hlast
    rw [stepLoop, hundo best s s _ hs hb hself hself]
    refine ⟨[], .nil s, le_refl _, rfl, by simp, fun _ => ?_, .inl rfl⟩
    split_ifs <;> simp
  | succ k ih =>
    intro best last s hs hb hself hlast
    have hp0 : ((if last.isSome then [s] else []) ++ []).Pairwise
        fun a b => meanError goals b ≤ meanError goals a := by split_ifs <;> simp
    rw [stepLoop]
    cases hst : step s with
    | throw => exact ⟨[], .nil s, by simp, rfl, by simp, hst⟩
    | invalid => exact ⟨[], .nil s, by simp, rfl, by simp, fun _ => hp0, .inr (.inl hst)⟩
    | move d =>
      have hd := hstep s d hst
      obtain ⟨s1, h1, h2⟩ := set_ok hu hf
        (v := List.zipWith (fun n x => s.value n + x) ns.nodes d) (by simp [hd]) hs
      have hm : Moved r ns.nodes d s s1 := moved_of hu.distinct hd h2
      simp only [h1]
      by_cases hc : checkTolerances aa s1 goals = true
      · rw [if_pos hc]
        exact ⟨[], .cons hst hm (.nil s1), by simp, (check_iff aa s1 goals).1 hc, by simp, fun _ => hp0⟩
      · rw [if_neg hc]
        have hn : ¬AllMet s1 goals := fun h => hc ((check_iff aa s1 goals).2 h)
        by_cases hmin : stepNorm d < minChange
        · rw [if_pos hmin, hundo best s s1 _ h2.2.1 hb hself h2]
          exact ⟨[], .nil s, by simp, rfl, by simp, fun _ => hp0,
            .inr (.inr ⟨d, s1, hst, hm, hn, .inl (stepNorm_eq d ▸ hmin)⟩)⟩
        · rw [if_neg hmin]
          by_cases himp : chk = true ∧ ∃ l, last = some l ∧ getMeanErrorPosition s1 goals > l
          · rw [if_pos himp, hundo best s s1 _ h2.2.1 hb hself h2]
            obtain ⟨hchk, x, hx, hgt⟩ := himp
            have := hlast x hx
            subst this
            rw [getMean_eq] at hgt
            exact ⟨[], .nil s, by simp, rfl, by simp, fun _ => hp0,
              .inr (.inr ⟨d, s1, hst, hm, hn, .inr ⟨hchk, .inl (by simp [hx]), hgt⟩⟩)⟩
          · rw [if_neg himp]
            have hle : chk = true → last.isSome = true → meanError goals s1 ≤ meanError goals s := by
              intro hchk hsome
              obtain ⟨x, hx⟩ := Option.isSome_iff_exists.1 hsome
              by_contra hcon
              exact himp ⟨hchk, x, hx, by rw [getMean_eq, hlast x hx]; exact not_le.1 hcon⟩
            have hpair : ∀ l : List (St Pose3),
                (chk = true → ([s1] ++ l).Pairwise fun a b => meanError goals b ≤ meanError goals a) →
                (chk = true → ((if last.isSome then [s] else []) ++ s1 :: l).Pairwise
                  fun a b => meanError goals b ≤ meanError goals a) := by
              intro l hl hchk
              have h := hl hchk
              by_cases hsome : last.isSome = true
              · rw [if_pos hsome]
                refine List.pairwise_cons.2 ⟨fun b hb => ?_, h⟩
                rcases List.mem_cons.1 hb with rfl | hb
                · exact hle hchk hsome
                · exact le_trans ((List.pairwise_cons.1 h).1 b hb) (hle hchk hsome)
              · rw [if_neg hsome]; exact h
            have hfin : ∀ l : List (St Pose3), final s (s1 :: l) = final s1 l := by
              intro l
              rw [final, final, List.getLastD_cons]
            have := ih (List.zipWith (fun n x => s.value n + x) ns.nodes d)
              (some (getMeanErrorPosition s1 goals)) s1 h2.2.1 (by simp [hd]) (setTo_absorb h2 h2)
              (fun x hx => by rw [← getMean_eq]; exact (Option.some.inj hx).symm)
            revert this
            cases stepLoop r fuel ns aa goals step minChange chk k
              (List.zipWith (fun n x => s.value n + x) ns.nodes d)
              (some (getMeanErrorPosition s1 goals)) s1 with
            | diverge => exact id
            | throw s' =>
              rintro ⟨l, hw, hlen, rfl, hnm, ht⟩
              exact ⟨s1 :: l, .cons hst hm hw, by simpa using hlen, (hfin l).symm,
                by simpa using ⟨hn, hnm⟩, ht⟩
            | done b s' =>
              cases b with
              | true =>
                rintro ⟨l, hw, hlen, hall, hnm, hpw⟩
                exact ⟨s1 :: l, .cons hst hm hw, by simpa using hlen, hall, by simpa using ⟨hn, hnm⟩,
                  hpair l (by simpa using hpw)⟩
              | false =>
                rintro ⟨l, hw, hlen, rfl, hnm, hpw, hwhy⟩
                refine ⟨s1 :: l, .cons hst hm hw, by simpa using hlen, (hfin l).symm,
                  by simpa using ⟨hn, hnm⟩, hpair l (by simpa using hpw), ?_⟩
                rcases hwhy with h | h | ⟨d', t, h3, h4, h5, h6⟩
                · exact .inl (by simp [h])
                · exact .inr (.inl h)
                · refine .inr (.inr ⟨d', t, h3, h4, h5, ?_⟩)
                  rcases h6 with h6 | ⟨h6, -, h7⟩
                  · exact .inl h6
                  · exact .inr ⟨h6, .inr (by simp), h7⟩

theorem walk_setTo {r : Robot Pose3} {nodes : List Nat} {step : St Pose3 → Step} {s : St Pose3}
    {l : List (St Pose3)} (hw : Walk r nodes step s l) (v : Nat → ℝ) (h : SetTo r nodes v s s) :
    ∀ t ∈ l, ∃ w, SetTo r nodes w s t := by
  induction hw generalizing v with
  | nil s => simp
  | cons hst hm hw ih =>
    obtain ⟨-, w, -, hset⟩ := hm
    intro t ht
    rcases List.mem_cons.1 ht with rfl | ht
    · exact ⟨w, hset⟩
    · obtain ⟨w', hw'⟩ := ih w (setTo_absorb hset hset) t ht
      exact ⟨w', setTo_trans hset hw'⟩

end Simox.Ik
