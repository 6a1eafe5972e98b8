import Verif.Wsf.LoadLemmas

/-!
# When the old run-length compression succeeds
-/

namespace Simox.Wsf

open Spec

theorem runs_head (x : UInt8) (l : List UInt8) : ∃ k rs, runs (x :: l) = (x, k) :: rs ∧ 0 < k := by
  rw [runs]
  split
  · exact ⟨1, [], rfl, by omega⟩
  · rename_i y k rs _
    split
    · rename_i h; subst h; exact ⟨k + 1, rs, rfl, by omega⟩
    · exact ⟨1, _, rfl, by omega⟩

theorem runs_cons_same {x : UInt8} {l : List UInt8} {k : Nat} {rs : List (UInt8 × Nat)}
    (h : runs l = (x, k) :: rs) : runs (x :: l) = (x, k + 1) :: rs := by
  rw [runs, h]
  simp

theorem runs_replicate_same {x : UInt8} {l : List UInt8} {k : Nat} {rs : List (UInt8 × Nat)}
    (h : runs l = (x, k) :: rs) : ∀ n, runs (List.replicate n x ++ l) = (x, k + n) :: rs
  | 0 => by simpa using h
  | n + 1 => by
    rw [List.replicate_succ, List.cons_append, runs_cons_same (runs_replicate_same h n), Nat.add_assoc]

theorem runs_replicate {x : UInt8} : ∀ n, 0 < n → runs (List.replicate n x) = [(x, n)]
  | 0, h => by omega
  | 1, _ => rfl
  | n + 2, _ => by
    rw [List.replicate_succ, runs_cons_same (runs_replicate (n + 1) (by omega))]

theorem runs_replicate_other {x y : UInt8} (hne : x ≠ y) {l : List UInt8} {k : Nat} {rs : List (UInt8 × Nat)}
    (h : runs l = (y, k) :: rs) : ∀ n, 0 < n → runs (List.replicate n x ++ l) = (x, n) :: (y, k) :: rs
  | 0, h => by omega
  | 1, _ => by
    show runs (x :: l) = _
    rw [runs, h]
    simp [hne]
  | n + 2, _ => by
    rw [List.replicate_succ, List.cons_append,
      runs_cons_same (runs_replicate_other hne h (n + 1) (by omega))]

/-- The pairs of a run that is not finished. -/
theorem pairCount_run {x : UInt8} {n : Nat} (h0 : 0 < n) (h : n ≤ 255) :
    pairCount (List.replicate n x) = 1 := by
  unfold pairCount
  rw [runs_replicate n h0]
  simp
  omega

theorem pairCount_other {x y : UInt8} (hne : x ≠ y) {n : Nat} (h0 : 0 < n) (h : n ≤ 255) (l : List UInt8) :
    pairCount (List.replicate n x ++ y :: l) = 1 + pairCount (y :: l) := by
  obtain ⟨k, rs, hr, _⟩ := runs_head y l
  unfold pairCount
  rw [runs_replicate_other hne hr n h0, hr]
  simp
  omega

theorem pairCount_full {x : UInt8} (l : List UInt8) :
    pairCount (List.replicate 255 x ++ x :: l) = 1 + pairCount (x :: l) := by
  obtain ⟨k, rs, hr, _⟩ := runs_head x l
  unfold pairCount
  rw [runs_replicate_same hr 255, hr]
  simp
  omega

/-- What happens with `k` more pairs, when `o` bytes have been written. -/
def verdict (size o k : Nat) (r : CRes) : Prop :=
  (o + 2 * k < size → ∃ z, r = .ok z) ∧
  (size ≤ o + 2 * k → (2 ∣ size → r = .throw) ∧ (¬ 2 ∣ size → r = .ub))

theorem putPair_last {size : Nat} {out : List UInt8} (h : 2 ∣ out.length) (ho : out.length < size)
    (count value : UInt8) : verdict size out.length 1 (putPair size out count value) := by
  unfold verdict putPair
  constructor
  · intro g
    rw [if_pos (by omega), if_neg (by omega)]
    exact ⟨_, rfl⟩
  · intro g
    constructor
    · intro g2; rw [if_pos (by omega), if_pos (by omega)]
    · intro g2; rw [if_neg (by omega)]

theorem putPair_next {size : Nat} {out : List UInt8} (h : 2 ∣ out.length) (ho : out.length < size)
    (count value : UInt8) (k : Nat) (hk : 0 < k) (f : List UInt8 → CRes)
    (hf : ∀ out', 2 ∣ out'.length → out'.length < size → out'.length = out.length + 2 →
      verdict size out'.length k (f out')) :
    verdict size out.length (1 + k)
      (match putPair size out count value with
        | .ok out' => f out'
        | .throw => .throw
        | .ub => .ub) := by
  obtain ⟨v1, v2⟩ := putPair_last h ho count value
  by_cases g : out.length + 2 * 1 < size
  · obtain ⟨z, hz⟩ := v1 g
    obtain ⟨e1, e2⟩ := putPair_ok hz
    rw [hz]
    have el : z.length = out.length + 2 := by rw [e1]; simp
    have := hf z (by omega) e2 el
    unfold verdict at this ⊢
    rw [el] at this
    refine ⟨fun g' => this.1 (by omega), fun g' => this.2 (by omega)⟩
  · obtain ⟨w1, w2⟩ := v2 (by omega)
    refine ⟨fun g' => by omega, fun _ => ⟨fun g2 => by rw [w1 g2], fun g2 => by rw [w2 g2]⟩⟩

theorem pairCount_pos (x : UInt8) (l : List UInt8) : 0 < pairCount (x :: l) := by
  obtain ⟨k, rs, hr, hk⟩ := runs_head x l
  unfold pairCount
  rw [hr]
  simp
  omega

theorem compressLoop_verdict {size : Nat} : ∀ (rest out : List UInt8) (cur count : UInt8),
    2 ∣ out.length → out.length < size → 1 ≤ count.toNat →
    verdict size out.length (pairCount (List.replicate count.toNat cur ++ rest))
      (compressLoop size out cur count rest)
  | [], out, cur, count, hd, ho, h1 => by
    have := count.toNat_lt
    rw [List.append_nil, pairCount_run h1 (by omega), compressLoop]
    exact putPair_last hd ho _ _
  | x :: rest, out, cur, count, hd, ho, h1 => by
    have hlt := count.toNat_lt
    rw [compressLoop]
    by_cases g : x = cur
    · subst g
      rw [if_pos rfl]
      by_cases g2 : count = 255
      · rw [if_pos g2]
        have e : count.toNat = 255 := by rw [g2]; rfl
        rw [e, pairCount_full]
        refine putPair_next hd ho 255 x _ (pairCount_pos _ _) (fun out' => compressLoop size out' x 1 rest) ?_
        intro out' k1 k2 _
        have := compressLoop_verdict rest out' x 1 k1 k2 (by decide)
        exact this
      · rw [if_neg g2]
        have hc : (count + 1).toNat = count.toNat + 1 := by
          have : count.toNat ≠ 255 := fun e => g2 (UInt8.toNat_inj.mp e)
          rw [UInt8.toNat_add]
          simp
          omega
        have := compressLoop_verdict rest out x (count + 1) hd ho (by omega)
        rw [hc, List.replicate_succ', List.append_assoc] at this
        exact this
    · rw [if_neg g, pairCount_other (fun e => g e.symm) h1 (by omega)]
      refine putPair_next hd ho count cur _ (pairCount_pos _ _) (fun out' => compressLoop size out' x 1 rest) ?_
      intro out' k1 k2 _
      exact compressLoop_verdict rest out' x 1 k1 k2 (by decide)

theorem compressData_verdict {l : List UInt8} (h : l ≠ []) :
    verdict l.length 0 (pairCount l) (compressData l) := by
  cases l with
  | nil => exact absurd rfl h
  | cons x rest =>
    exact compressLoop_verdict (size := rest.length + 1) rest [] x 1 (by simp) (by simp) (by decide)

end Simox.Wsf
