/-
Two concrete pairs of triangles, followed through the loop over edge pairs.
-/
import Verif.Pqp.DistModel
import Mathlib.Tactic.NormNum

namespace Simox.Pqp

theorem fin11 : (1 + 1 : Fin 3) = 2 := rfl
theorem fin12 : (1 + 2 : Fin 3) = 0 := rfl
theorem fin21 : (2 + 1 : Fin 3) = 0 := rfl
theorem fin22 : (2 + 2 : Fin 3) = 1 := rfl

/-- A tiny triangle. -/
noncomputable def tinyS : Corners
  | 0 => ⟨0, 0, 0⟩
  | 1 => ⟨1 / 10000, 0, 0⟩
  | 2 => ⟨0, 1 / 10000, 0⟩

theorem tinyS_0 : tinyS 0 = ⟨0, 0, 0⟩ := rfl

theorem tinyS_1 : tinyS 1 = ⟨1 / 10000, 0, 0⟩ := rfl

theorem tinyS_2 : tinyS 2 = ⟨0, 1 / 10000, 0⟩ := rfl

/-- A triangle with a corner above it. -/
noncomputable def tinyT : Corners
  | 0 => ⟨1 / 40000, 1 / 40000, 1 / 100000⟩
  | 1 => ⟨1, 0, 1⟩
  | 2 => ⟨0, 1, 1⟩

theorem tinyT_0 : tinyT 0 = ⟨1 / 40000, 1 / 40000, 1 / 100000⟩ := rfl

theorem tinyT_1 : tinyT 1 = ⟨1, 0, 1⟩ := rfl

theorem tinyT_2 : tinyT 2 = ⟨0, 1, 1⟩ := rfl

theorem tiny_step0 : edgeStep tinyS tinyT 0 0
    ⟨20000000027 / 20000000000, ⟨0, 0, 0⟩, ⟨1 / 40000, 1 / 40000, 1 / 100000⟩, false, ⟨0, 0, 0⟩, ⟨1 / 40000, 1 / 40000, 1 / 100000⟩⟩
    = .inr ⟨29 / 40000000000, ⟨1 / 40000, 0, 0⟩, ⟨1 / 40000, 1 / 40000, 1 / 100000⟩, false, ⟨1 / 40000, 0, 0⟩, ⟨1 / 40000, 1 / 40000, 1 / 100000⟩⟩ := by
  norm_num [edgeStep, segPoints, clampQ, sideVec, dot, vsub, vadd, vscale, vaddScaled, cross, tinyS_0, tinyS_1, tinyS_2, tinyT_0, tinyT_1, tinyT_2, Fin.isValue, zero_add, fin11, fin12, fin21, fin22]

theorem tiny_step1 : edgeStep tinyS tinyT 0 1
    ⟨29 / 40000000000, ⟨1 / 40000, 0, 0⟩, ⟨1 / 40000, 1 / 40000, 1 / 100000⟩, false, ⟨1 / 40000, 0, 0⟩, ⟨1 / 40000, 1 / 40000, 1 / 100000⟩⟩
    = .inr ⟨29 / 40000000000, ⟨1 / 40000, 0, 0⟩, ⟨1 / 40000, 1 / 40000, 1 / 100000⟩, false, ⟨1 / 10000, 0, 0⟩, ⟨10001 / 20000, 9999 / 20000, 1⟩⟩ := by
  norm_num [edgeStep, segPoints, clampQ, sideVec, dot, vsub, vadd, vscale, vaddScaled, cross, tinyS_0, tinyS_1, tinyS_2, tinyT_0, tinyT_1, tinyT_2, Fin.isValue, zero_add, fin11, fin12, fin21, fin22]

theorem tiny_step2 : edgeStep tinyS tinyT 0 2
    ⟨29 / 40000000000, ⟨1 / 40000, 0, 0⟩, ⟨1 / 40000, 1 / 40000, 1 / 100000⟩, false, ⟨1 / 10000, 0, 0⟩, ⟨10001 / 20000, 9999 / 20000, 1⟩⟩
    = .inr ⟨29 / 40000000000, ⟨1 / 40000, 0, 0⟩, ⟨1 / 40000, 1 / 40000, 1 / 100000⟩, false, ⟨1 / 40000, 0, 0⟩, ⟨1 / 40000, 1 / 40000, 1 / 100000⟩⟩ := by
  norm_num [edgeStep, segPoints, clampQ, sideVec, dot, vsub, vadd, vscale, vaddScaled, cross, tinyS_0, tinyS_1, tinyS_2, tinyT_0, tinyT_1, tinyT_2, Fin.isValue, zero_add, fin11, fin12, fin21, fin22]

theorem tiny_step3 : edgeStep tinyS tinyT 1 0
    ⟨29 / 40000000000, ⟨1 / 40000, 0, 0⟩, ⟨1 / 40000, 1 / 40000, 1 / 100000⟩, false, ⟨1 / 40000, 0, 0⟩, ⟨1 / 40000, 1 / 40000, 1 / 100000⟩⟩
    = .inr ⟨29 / 40000000000, ⟨1 / 40000, 0, 0⟩, ⟨1 / 40000, 1 / 40000, 1 / 100000⟩, false, ⟨32998370027 / 599972000540000, 26998830027 / 599972000540000, 0⟩, ⟨839947601 / 23998880021600, 599966001 / 23998880021600, 1199920001 / 59997200054000⟩⟩ := by
  norm_num [edgeStep, segPoints, clampQ, sideVec, dot, vsub, vadd, vscale, vaddScaled, cross, tinyS_0, tinyS_1, tinyS_2, tinyT_0, tinyT_1, tinyT_2, Fin.isValue, zero_add, fin11, fin12, fin21, fin22]

theorem tiny_step4 : edgeStep tinyS tinyT 1 1
    ⟨29 / 40000000000, ⟨1 / 40000, 0, 0⟩, ⟨1 / 40000, 1 / 40000, 1 / 100000⟩, false, ⟨32998370027 / 599972000540000, 26998830027 / 599972000540000, 0⟩, ⟨839947601 / 23998880021600, 599966001 / 23998880021600, 1199920001 / 59997200054000⟩⟩
    = .inr ⟨29 / 40000000000, ⟨1 / 40000, 0, 0⟩, ⟨1 / 40000, 1 / 40000, 1 / 100000⟩, false, ⟨1 / 10000, 0, 0⟩, ⟨10001 / 20000, 9999 / 20000, 1⟩⟩ := by
  norm_num [edgeStep, segPoints, clampQ, sideVec, dot, vsub, vadd, vscale, vaddScaled, cross, tinyS_0, tinyS_1, tinyS_2, tinyT_0, tinyT_1, tinyT_2, Fin.isValue, zero_add, fin11, fin12, fin21, fin22]

theorem tiny_step5 : edgeStep tinyS tinyT 1 2
    ⟨29 / 40000000000, ⟨1 / 40000, 0, 0⟩, ⟨1 / 40000, 1 / 40000, 1 / 100000⟩, false, ⟨1 / 10000, 0, 0⟩, ⟨10001 / 20000, 9999 / 20000, 1⟩⟩
    = .inr ⟨29 / 40000000000, ⟨1 / 40000, 0, 0⟩, ⟨1 / 40000, 1 / 40000, 1 / 100000⟩, false, ⟨26998830027 / 599972000540000, 32998370027 / 599972000540000, 0⟩, ⟨599966001 / 23998880021600, 839947601 / 23998880021600, 1199920001 / 59997200054000⟩⟩ := by
  norm_num [edgeStep, segPoints, clampQ, sideVec, dot, vsub, vadd, vscale, vaddScaled, cross, tinyS_0, tinyS_1, tinyS_2, tinyT_0, tinyT_1, tinyT_2, Fin.isValue, zero_add, fin11, fin12, fin21, fin22]

theorem tiny_step6 : edgeStep tinyS tinyT 2 0
    ⟨29 / 40000000000, ⟨1 / 40000, 0, 0⟩, ⟨1 / 40000, 1 / 40000, 1 / 100000⟩, false, ⟨26998830027 / 599972000540000, 32998370027 / 599972000540000, 0⟩, ⟨599966001 / 23998880021600, 839947601 / 23998880021600, 1199920001 / 59997200054000⟩⟩
    = .inr ⟨29 / 40000000000, ⟨0, 1 / 40000, 0⟩, ⟨1 / 40000, 1 / 40000, 1 / 100000⟩, false, ⟨0, 1 / 40000, 0⟩, ⟨1 / 40000, 1 / 40000, 1 / 100000⟩⟩ := by
  norm_num [edgeStep, segPoints, clampQ, sideVec, dot, vsub, vadd, vscale, vaddScaled, cross, tinyS_0, tinyS_1, tinyS_2, tinyT_0, tinyT_1, tinyT_2, Fin.isValue, zero_add, fin11, fin12, fin21, fin22]

theorem tiny_step7 : edgeStep tinyS tinyT 2 1
    ⟨29 / 40000000000, ⟨0, 1 / 40000, 0⟩, ⟨1 / 40000, 1 / 40000, 1 / 100000⟩, false, ⟨0, 1 / 40000, 0⟩, ⟨1 / 40000, 1 / 40000, 1 / 100000⟩⟩
    = .inr ⟨29 / 40000000000, ⟨0, 1 / 40000, 0⟩, ⟨1 / 40000, 1 / 40000, 1 / 100000⟩, false, ⟨0, 1 / 10000, 0⟩, ⟨9999 / 20000, 10001 / 20000, 1⟩⟩ := by
  norm_num [edgeStep, segPoints, clampQ, sideVec, dot, vsub, vadd, vscale, vaddScaled, cross, tinyS_0, tinyS_1, tinyS_2, tinyT_0, tinyT_1, tinyT_2, Fin.isValue, zero_add, fin11, fin12, fin21, fin22]

theorem tiny_step8 : edgeStep tinyS tinyT 2 2
    ⟨29 / 40000000000, ⟨0, 1 / 40000, 0⟩, ⟨1 / 40000, 1 / 40000, 1 / 100000⟩, false, ⟨0, 1 / 10000, 0⟩, ⟨9999 / 20000, 10001 / 20000, 1⟩⟩
    = .inr ⟨29 / 40000000000, ⟨0, 1 / 40000, 0⟩, ⟨1 / 40000, 1 / 40000, 1 / 100000⟩, false, ⟨0, 1 / 40000, 0⟩, ⟨1 / 40000, 1 / 40000, 1 / 100000⟩⟩ := by
  norm_num [edgeStep, segPoints, clampQ, sideVec, dot, vsub, vadd, vscale, vaddScaled, cross, tinyS_0, tinyS_1, tinyS_2, tinyT_0, tinyT_1, tinyT_2, Fin.isValue, zero_add, fin11, fin12, fin21, fin22]

theorem tiny_loop : edgeLoop tinyS tinyT edgePairs ⟨dist2 (tinyS 0) (tinyT 0) + 1, tinyS 0, tinyT 0, false, tinyS 0, tinyT 0⟩
    = .inr ⟨29 / 40000000000, ⟨0, 1 / 40000, 0⟩, ⟨1 / 40000, 1 / 40000, 1 / 100000⟩, false, ⟨0, 1 / 40000, 0⟩, ⟨1 / 40000, 1 / 40000, 1 / 100000⟩⟩ := by
  have h : dist2 (tinyS 0) (tinyT 0) + 1 = 20000000027 / 20000000000 := by
    norm_num [dist2, tinyS_0, tinyT_0]
  rw [h]
  have h1 : tinyS 0 = ⟨0, 0, 0⟩ := tinyS_0
  have h2 : tinyT 0 = ⟨1 / 40000, 1 / 40000, 1 / 100000⟩ := tinyT_0
  rw [h1, h2]
  unfold edgePairs
  simp only [edgeLoop, tiny_step0, tiny_step1, tiny_step2, tiny_step3, tiny_step4, tiny_step5, tiny_step6, tiny_step7, tiny_step8]

/-- A triangle. -/
noncomputable def crossingS : Corners
  | 0 => ⟨0, 0, 0⟩
  | 1 => ⟨4, 0, 0⟩
  | 2 => ⟨0, 4, 0⟩

theorem crossingS_0 : crossingS 0 = ⟨0, 0, 0⟩ := rfl

theorem crossingS_1 : crossingS 1 = ⟨4, 0, 0⟩ := rfl

theorem crossingS_2 : crossingS 2 = ⟨0, 4, 0⟩ := rfl

/-- A triangle that crosses it. -/
noncomputable def crossingT : Corners
  | 0 => ⟨1, 1, -1⟩
  | 1 => ⟨1, 1, 1⟩
  | 2 => ⟨2, 2, 1⟩

theorem crossingT_0 : crossingT 0 = ⟨1, 1, -1⟩ := rfl

theorem crossingT_1 : crossingT 1 = ⟨1, 1, 1⟩ := rfl

theorem crossingT_2 : crossingT 2 = ⟨2, 2, 1⟩ := rfl

theorem crossing_step0 : edgeStep crossingS crossingT 0 0
    ⟨4, ⟨0, 0, 0⟩, ⟨1, 1, -1⟩, false, ⟨0, 0, 0⟩, ⟨1, 1, -1⟩⟩
    = .inr ⟨1, ⟨1, 0, 0⟩, ⟨1, 1, 0⟩, false, ⟨1, 0, 0⟩, ⟨1, 1, 0⟩⟩ := by
  norm_num [edgeStep, segPoints, clampQ, sideVec, dot, vsub, vadd, vscale, vaddScaled, cross, crossingS_0, crossingS_1, crossingS_2, crossingT_0, crossingT_1, crossingT_2, Fin.isValue, zero_add, fin11, fin12, fin21, fin22]

theorem crossing_step1 : edgeStep crossingS crossingT 0 1
    ⟨1, ⟨1, 0, 0⟩, ⟨1, 1, 0⟩, false, ⟨1, 0, 0⟩, ⟨1, 1, 0⟩⟩
    = .inr ⟨1, ⟨1, 0, 0⟩, ⟨1, 1, 0⟩, false, ⟨1, 0, 0⟩, ⟨1, 1, 1⟩⟩ := by
  norm_num [edgeStep, segPoints, clampQ, sideVec, dot, vsub, vadd, vscale, vaddScaled, cross, crossingS_0, crossingS_1, crossingS_2, crossingT_0, crossingT_1, crossingT_2, Fin.isValue, zero_add, fin11, fin12, fin21, fin22]

theorem crossing_step2 : edgeStep crossingS crossingT 0 2
    ⟨1, ⟨1, 0, 0⟩, ⟨1, 1, 0⟩, false, ⟨1, 0, 0⟩, ⟨1, 1, 1⟩⟩
    = .inr ⟨1, ⟨1, 0, 0⟩, ⟨1, 1, 0⟩, false, ⟨6 / 5, 0, 0⟩, ⟨6 / 5, 6 / 5, -3 / 5⟩⟩ := by
  norm_num [edgeStep, segPoints, clampQ, sideVec, dot, vsub, vadd, vscale, vaddScaled, cross, crossingS_0, crossingS_1, crossingS_2, crossingT_0, crossingT_1, crossingT_2, Fin.isValue, zero_add, fin11, fin12, fin21, fin22]

theorem crossing_step3 : edgeStep crossingS crossingT 1 0
    ⟨1, ⟨1, 0, 0⟩, ⟨1, 1, 0⟩, false, ⟨6 / 5, 0, 0⟩, ⟨6 / 5, 6 / 5, -3 / 5⟩⟩
    = .inr ⟨1, ⟨1, 0, 0⟩, ⟨1, 1, 0⟩, false, ⟨2, 2, 0⟩, ⟨1, 1, 0⟩⟩ := by
  norm_num [edgeStep, segPoints, clampQ, sideVec, dot, vsub, vadd, vscale, vaddScaled, cross, crossingS_0, crossingS_1, crossingS_2, crossingT_0, crossingT_1, crossingT_2, Fin.isValue, zero_add, fin11, fin12, fin21, fin22]

theorem crossing_step4 : edgeStep crossingS crossingT 1 1
    ⟨1, ⟨1, 0, 0⟩, ⟨1, 1, 0⟩, false, ⟨2, 2, 0⟩, ⟨1, 1, 0⟩⟩
    = .inr ⟨1, ⟨2, 2, 0⟩, ⟨2, 2, 1⟩, false, ⟨2, 2, 0⟩, ⟨2, 2, 1⟩⟩ := by
  norm_num [edgeStep, segPoints, clampQ, sideVec, dot, vsub, vadd, vscale, vaddScaled, cross, crossingS_0, crossingS_1, crossingS_2, crossingT_0, crossingT_1, crossingT_2, Fin.isValue, zero_add, fin11, fin12, fin21, fin22]

theorem crossing_step5 : edgeStep crossingS crossingT 1 2
    ⟨1, ⟨2, 2, 0⟩, ⟨2, 2, 1⟩, false, ⟨2, 2, 0⟩, ⟨2, 2, 1⟩⟩
    = .inr ⟨1 / 3, ⟨2, 2, 0⟩, ⟨5 / 3, 5 / 3, 1 / 3⟩, false, ⟨2, 2, 0⟩, ⟨5 / 3, 5 / 3, 1 / 3⟩⟩ := by
  norm_num [edgeStep, segPoints, clampQ, sideVec, dot, vsub, vadd, vscale, vaddScaled, cross, crossingS_0, crossingS_1, crossingS_2, crossingT_0, crossingT_1, crossingT_2, Fin.isValue, zero_add, fin11, fin12, fin21, fin22]

theorem crossing_step6 : edgeStep crossingS crossingT 2 0
    ⟨1 / 3, ⟨2, 2, 0⟩, ⟨5 / 3, 5 / 3, 1 / 3⟩, false, ⟨2, 2, 0⟩, ⟨5 / 3, 5 / 3, 1 / 3⟩⟩
    = .inr ⟨1 / 3, ⟨2, 2, 0⟩, ⟨5 / 3, 5 / 3, 1 / 3⟩, false, ⟨0, 1, 0⟩, ⟨1, 1, 0⟩⟩ := by
  norm_num [edgeStep, segPoints, clampQ, sideVec, dot, vsub, vadd, vscale, vaddScaled, cross, crossingS_0, crossingS_1, crossingS_2, crossingT_0, crossingT_1, crossingT_2, Fin.isValue, zero_add, fin11, fin12, fin21, fin22]

theorem crossing_step7 : edgeStep crossingS crossingT 2 1
    ⟨1 / 3, ⟨2, 2, 0⟩, ⟨5 / 3, 5 / 3, 1 / 3⟩, false, ⟨0, 1, 0⟩, ⟨1, 1, 0⟩⟩
    = .inr ⟨1 / 3, ⟨2, 2, 0⟩, ⟨5 / 3, 5 / 3, 1 / 3⟩, false, ⟨0, 1, 0⟩, ⟨1, 1, 1⟩⟩ := by
  norm_num [edgeStep, segPoints, clampQ, sideVec, dot, vsub, vadd, vscale, vaddScaled, cross, crossingS_0, crossingS_1, crossingS_2, crossingT_0, crossingT_1, crossingT_2, Fin.isValue, zero_add, fin11, fin12, fin21, fin22]

theorem crossing_step8 : edgeStep crossingS crossingT 2 2
    ⟨1 / 3, ⟨2, 2, 0⟩, ⟨5 / 3, 5 / 3, 1 / 3⟩, false, ⟨0, 1, 0⟩, ⟨1, 1, 1⟩⟩
    = .inr ⟨1 / 3, ⟨2, 2, 0⟩, ⟨5 / 3, 5 / 3, 1 / 3⟩, false, ⟨0, 6 / 5, 0⟩, ⟨6 / 5, 6 / 5, -3 / 5⟩⟩ := by
  norm_num [edgeStep, segPoints, clampQ, sideVec, dot, vsub, vadd, vscale, vaddScaled, cross, crossingS_0, crossingS_1, crossingS_2, crossingT_0, crossingT_1, crossingT_2, Fin.isValue, zero_add, fin11, fin12, fin21, fin22]

theorem crossing_loop : edgeLoop crossingS crossingT edgePairs ⟨dist2 (crossingS 0) (crossingT 0) + 1, crossingS 0, crossingT 0, false, crossingS 0, crossingT 0⟩
    = .inr ⟨1 / 3, ⟨2, 2, 0⟩, ⟨5 / 3, 5 / 3, 1 / 3⟩, false, ⟨0, 6 / 5, 0⟩, ⟨6 / 5, 6 / 5, -3 / 5⟩⟩ := by
  have h : dist2 (crossingS 0) (crossingT 0) + 1 = 4 := by
    norm_num [dist2, crossingS_0, crossingT_0]
  rw [h]
  have h1 : crossingS 0 = ⟨0, 0, 0⟩ := crossingS_0
  have h2 : crossingT 0 = ⟨1, 1, -1⟩ := crossingT_0
  rw [h1, h2]
  unfold edgePairs
  simp only [edgeLoop, crossing_step0, crossing_step1, crossing_step2, crossing_step3, crossing_step4, crossing_step5, crossing_step6, crossing_step7, crossing_step8]

end Simox.Pqp
