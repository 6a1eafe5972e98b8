import Verif.Cst.Spec
import Verif.Jac.ComProps
import Verif.Ik.Angle
import Verif.Ik.Lemmas
import Mathlib.Analysis.Calculus.Deriv.Pow
import Mathlib.Analysis.SpecialFunctions.Trigonometric.InverseDeriv

/-!
# Constraints: lemmas
-/

namespace Simox.Cst

open Matrix Kin Kin.Spec Jac Jac.Spec Ik Spec

/-- Moving a joint of the set moves the tcp with the velocities in the Jacobian. -/
theorem tcp_moves (r : JRobot) (hn : Names r.toRobot) (s : St Pose3) (hs : FK r.toRobot s) (nodes : List Nat) (hnodes : ∀ n ∈ nodes, n ∈ r.tree.ids)
    (tcp : Tcp) (o : Nat) (ht : IsTcp r o tcp) (i d : Nat) (hi : nodes[i]? = some d) (hp : r.prop d = [])
    (h1 : (r.lim d).lo < s.value d) (h2 : s.value d < (r.lim d).hi) :
    ∃ f : ℝ → St Pose3, (∀ x, setJointValue r.toRobot 1 d x s = some (f x)) ∧ (f (s.value d)).pose o = s.pose o ∧
      ∃ v ω : V3, Velocity (fun x => (f x).pose o) v (s.value d) ∧ AngularVelocity (fun x => (f x).pose o) ω (s.value d) ∧
        (∀ k : Fin 3, entry (tcpJacobian r s nodes tcp) k i = v k) ∧ ∀ k : Fin 3, entry (tcpJacobian r s nodes tcp) (3 + k) i = ω k := by
  obtain ⟨f, hf, v, ω, hv, hω, hcol⟩ := C52_columns r hn s hs nodes hnodes none false flagAll tcp o ht i d hi hp h1 h2
  have hu : unit false (r.kind d) = 1 := by cases r.kind d <;> rfl
  have hd : d ∈ nodes := List.mem_of_getElem? hi
  obtain ⟨f', hf1, hf2, hf3, hf4⟩ := setJoint_moves r hn s hs d (hnodes d hd) hp h1 h2
  have hff : f' = f := by
    funext x
    have := (hf1 x).symm.trans (hf x)
    exact Option.some.inj this
  subst hff
  refine ⟨f', hf, ?_, v, ω, hv, hω, ?_, ?_⟩
  · obtain ⟨p, l, hc, -, -, -⟩ := tcp_chain r hn nodes ht hd
    have e : (f' (s.value d)).value = s.value := by
      rw [hf4.self_of_nhds]
      funext j
      by_cases hj : j = d <;> simp [upd, hj]
    rw [hf2 _ _ _ hc, hs _ _ hc, hf3, e]
  all_goals
    rw [hu, one_smul] at hcol
    have hl := (C52_size r s nodes none false flagAll tcp).1
    unfold tcpJacobian entry
    generalize jacobian r s nodes none false flagAll tcp = J at *
    simp only [select, flagAll] at hcol hl
    have hb : Nat.testBit 15 0 = true ∧ Nat.testBit 15 1 = true ∧ Nat.testBit 15 2 = true ∧ Nat.testBit 15 3 = true := by decide
    simp only [hb, if_true, List.cons_append, List.nil_append, List.map_cons, List.map_nil, List.length_cons, List.length_nil] at hcol hl
    match J, hl with
    | [a0, a1, a2, a3, a4, a5], _ =>
      simp only [colAt, List.map_cons, List.map_nil, List.cons.injEq, and_true] at hcol
      obtain ⟨e0, e1, e2, e3, e4, e5⟩ := hcol
      intro k
      fin_cases k <;> simp [List.getD_eq_getElem?_getD, *]

/-- Moving a joint of the set moves the centre of mass with the velocities in the Jacobian. -/
theorem com_moves (r : JRobot) (hn : Names r.toRobot) (m : Masses) (hm : ∀ n, 0 ≤ m.mass n) (s : St Pose3) (hs : FK r.toRobot s)
    (nodes bodies : List Nat) (hnodes : ∀ n ∈ nodes, n ∈ r.tree.ids) (hbodies : ∀ n ∈ bodies, n ∈ r.tree.ids) (hne : bodies ≠ []) (dim : Nat)
    (i d : Nat) (hi : nodes[i]? = some d) (hp : r.prop d = []) (h1 : (r.lim d).lo < s.value d) (h2 : s.value d < (r.lim d).hi) :
    ∃ f : ℝ → St Pose3, (∀ x, setJointValue r.toRobot 1 d x s = some (f x)) ∧ getCoM m (f (s.value d)) bodies = getCoM m s bodies ∧
      ∃ v : V3, HasDerivAt (fun x => getCoM m (f x) bodies) v (s.value d) ∧
        entry (comJacobian r m s nodes bodies none false dim) 0 i = v 0 ∧ entry (comJacobian r m s nodes bodies none false dim) 1 i = v 1 ∧
        (dim ≠ 2 → entry (comJacobian r m s nodes bodies none false dim) 2 i = v 2) := by
  obtain ⟨f, hf, v, hv, hcol⟩ := C53_columns r hn m hm s hs nodes bodies hnodes hbodies hne false dim i d hi hp h1 h2
  have hu : unit false (r.kind d) = 1 := by cases r.kind d <;> rfl
  have hd : d ∈ nodes := List.mem_of_getElem? hi
  obtain ⟨f', hf1, hf2, hf3, hf4⟩ := setJoint_moves r hn s hs d (hnodes d hd) hp h1 h2
  have hff : f' = f := by
    funext x
    have := (hf1 x).symm.trans (hf x)
    exact Option.some.inj this
  subst hff
  have e : (f' (s.value d)).value = s.value := by
    rw [hf4.self_of_nhds]
    funext j
    by_cases hj : j = d <;> simp [upd, hj]
  have hpose : ∀ b ∈ bodies, (f' (s.value d)).pose b = s.pose b := by
    intro b hb
    obtain ⟨l, hc, -⟩ := exists_chain r.tree b (hbodies b hb)
    rw [hf2 _ _ _ hc, hs _ _ hc, hf3, e]
  refine ⟨f', hf, ?_, v, hv, ?_⟩
  · have hsum : ∀ (t : ℝ) (bs : List Nat), (∀ b ∈ bs, (f' (s.value d)).pose b = s.pose b) → comSum m (f' (s.value d)) t bs = comSum m s t bs := by
      intro t bs hb
      induction bs with
      | nil => rfl
      | cons b bs ih => rw [comSum, comSum, ih (fun c hc => hb c (List.mem_cons_of_mem _ hc)), comGlobal, comGlobal, hb b (by simp)]
    rw [getCoM, getCoM, hsum _ _ hpose]
  · rw [hu, one_smul] at hcol
    have hl := (C53_size r m s nodes bodies hne none false dim).1
    unfold entry
    generalize comJacobian r m s nodes bodies none false dim = J at *
    by_cases h : dim = 2
    · simp only [coords, h, if_true, List.map_cons, List.map_nil] at hcol hl
      match J, hl with
      | [a0, a1], _ =>
        simp only [colAt, List.map_cons, List.map_nil, List.cons.injEq, and_true] at hcol
        simp [List.getD_eq_getElem?_getD, hcol.1, hcol.2, h]
    · simp only [coords, h, if_false, List.map_cons, List.map_nil] at hcol hl
      match J, hl with
      | [a0, a1, a2], _ =>
        simp only [colAt, List.map_cons, List.map_nil, List.cons.injEq, and_true] at hcol
        simp [List.getD_eq_getElem?_getD, hcol.1, hcol.2.1, hcol.2.2]

theorem get_rowTimes {d : V3} {J : List (List ℝ)} {a size i : Nat} (hi : i < size) (c : ℝ) :
    (scale c (rowTimes d J a size))[i]? = some (c * (d 0 * entry J a i + d 1 * entry J (a + 1) i + d 2 * entry J (a + 2) i)) := by
  simp [scale, rowTimes, hi]

theorem get_zeros {size i : Nat} (hi : i < size) : (zeros size)[i]? = some 0 := by simp [zeros, hi]

theorem length_rowTimes (c : ℝ) (d : V3) (J : List (List ℝ)) (a size : Nat) : (scale c (rowTimes d J a size)).length = size := by simp [scale, rowTimes]

/-- Component of a derivative. -/
theorem comp_deriv {p : ℝ → V3} {v : V3} {x : ℝ} (h : HasDerivAt p v x) (k : Fin 3) : HasDerivAt (fun y => p y k) (v k) x :=
  hasDerivAt_pi.1 h k

theorem index_lt {nodes : List Nat} {i d : Nat} (h : nodes[i]? = some d) : i < nodes.length := (List.getElem?_eq_some_iff.1 h).1

end Simox.Cst
