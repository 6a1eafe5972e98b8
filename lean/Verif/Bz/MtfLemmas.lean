import Verif.Bz.MtfModel
import Mathlib.Data.List.GetD
import Mathlib.Data.List.Basic
import Mathlib.Data.List.Perm.Subperm
import Mathlib.Tactic.Ring
import Mathlib.Tactic.Linarith

/-!
# bzip2: move to front and runs of zeros: lemmas
-/

namespace Simox.Bz

/-! ## Numbers of bytes -/

theorem unseq_lt {inUse : Nat → Bool} {b : Nat} (hb : b < 256) (hu : inUse b = true) :
    unseqToSeq inUse b < nInUse inUse ∧ (seqToUnseq inUse).getD (unseqToSeq inUse b) 0 = b := by
  have hr : List.range 256 = List.range b ++ (b :: List.range' (b + 1) (255 - b)) := by
    rw [List.range_eq_range', List.range_eq_range', ← List.range'_succ, List.range'_append_1' b]
    congr 1; omega
  have hs : seqToUnseq inUse = (List.range b).filter inUse ++ (b :: (List.range' (b + 1) (255 - b)).filter inUse) := by
    rw [seqToUnseq, hr, List.filter_append, List.filter_cons, if_pos hu]
  constructor
  · rw [nInUse, hs, unseqToSeq]; simp
  · rw [hs, unseqToSeq, List.getD_append_right _ _ _ _ le_rfl]; simp
where
  List.range'_append_1' (b : Nat) : List.range' 0 b ++ List.range' b (255 - b + 1) = List.range' 0 (b + (255 - b + 1)) := by
    have := List.range'_append_1 (s := 0) (m := b) (n := 255 - b + 1)
    simpa using this

/-! ## Runs -/

theorem runDigits_bits (z : Nat) : ∀ d ∈ runDigits z, d = 0 ∨ d = 1 := by
  induction z using Nat.strongRecOn with
  | ind z ih =>
    rw [runDigits]
    intro d hd
    rw [List.mem_cons] at hd
    rcases hd with rfl | hd
    · split <;> simp
    · split at hd
      · exact ih _ (by omega) d hd
      · cases hd

/-- Reading the digits of a run. -/
theorem decode_digits (seq : List Nat) (eob max : Nat) (z : Nat) : ∀ (s : MtfD) (l : List Nat), s.run = true →
    0 < s.n → s.n * (z + 1) < 2 * 1024 * 1024 →
    ∃ n', mtfDecode seq eob max s (runDigits z ++ l) =
      mtfDecode seq eob max { s with es := s.es + s.n * (z + 1), n := n' } l := by
  induction z using Nat.strongRecOn with
  | ind z ih =>
    intro s l hrun hpos hn
    have hlt : ¬ 2 * 1024 * 1024 ≤ s.n := by
      have : s.n * 1 ≤ s.n * (z + 1) := Nat.mul_le_mul_left _ (by omega)
      omega
    rw [runDigits]
    have hstep : ∀ d, d = 0 ∨ d = 1 → ∀ l', mtfDecode seq eob max s (d :: l') =
        mtfDecode seq eob max { s with es := s.es + (if d = 0 then s.n else 2 * s.n), n := s.n * 2 } l' := by
      intro d hd l'
      rw [mtfDecode, mtfDecStep, if_pos hd]
      simp only [hrun, if_true]
      rw [if_neg hlt]
    rw [List.cons_append, hstep _ (by split <;> simp)]
    by_cases h2 : 2 ≤ z
    · rw [if_pos h2]
      obtain ⟨y, hy⟩ : ∃ y, z = 2 * y + 2 ∨ z = 2 * y + 3 := ⟨(z - 2) / 2, by omega⟩
      have hy' : (z - 2) / 2 = y := by omega
      rw [hy']
      obtain ⟨n', hn'⟩ := ih y (by omega)
        { s with es := s.es + (if (if z % 2 = 1 then 1 else 0) = 0 then s.n else 2 * s.n), n := s.n * 2 } l hrun
        (by simp only; omega) (by
          simp only
          have : s.n * 2 * (y + 1) ≤ s.n * (z + 1) := by
            rw [mul_assoc]; exact Nat.mul_le_mul_left _ (by omega)
          omega)
      refine ⟨n', hn'.trans ?_⟩
      congr 2
      rcases hy with rfl | rfl
      · have : (2 * y + 2) % 2 = 0 := by omega
        simp only [this]; simp; ring
      · have : (2 * y + 3) % 2 = 1 := by omega
        simp only [this]; simp; ring
    · rw [if_neg h2, List.nil_append]
      refine ⟨s.n * 2, ?_⟩
      have hz : z = 0 ∨ z = 1 := by omega
      congr 2
      · rcases hz with rfl | rfl
        · simp
        · simp; omega

/-- Reading a run. -/
theorem decode_flush (seq : List Nat) (eob max : Nat) {z : Nat} (s : MtfD) (l : List Nat) (hrun : s.run = false)
    (hz : z < 2 * 1024 * 1024) : ∃ n', mtfDecode seq eob max s (flushZeros z ++ l) =
      mtfDecode seq eob max (if 0 < z then { s with run := true, es := z, n := n' } else s) l := by
  unfold flushZeros
  by_cases h0 : 0 < z
  · rw [if_pos h0]
    have e : mtfDecode seq eob max s (runDigits (z - 1) ++ l) =
        mtfDecode seq eob max { s with run := true, es := 0, n := 1 } (runDigits (z - 1) ++ l) := by
      obtain ⟨d, t, hd⟩ : ∃ d t, runDigits (z - 1) = d :: t := by rw [runDigits]; exact ⟨_, _, rfl⟩
      have hd' := runDigits_bits (z - 1) d (by rw [hd]; simp)
      rw [hd, List.cons_append, mtfDecode, mtfDecode, mtfDecStep, mtfDecStep, if_pos hd', if_pos hd']
      simp [hrun]
    obtain ⟨n', hn'⟩ := decode_digits seq eob max (z - 1) { s with run := true, es := 0, n := 1 } l rfl
      (by simp) (by simp; omega)
    refine ⟨n', ?_⟩
    rw [e, hn', if_pos h0]
    congr 2
    simp; omega
  · rw [if_neg h0]
    exact ⟨0, by simp [h0]⟩

theorem endRun_spec {seq : List Nat} {max : Nat} {s : MtfD} {z n' : Nat} {a : Nat} {t : List Nat}
    (hrun : s.run = false) (hy : s.yy = a :: t) (hm : s.tt.length + z ≤ max) :
    ∃ es n, (if 0 < z then { s with run := true, es := z, n := n' } else s : MtfD).endRun seq max =
      some { s with run := false, es := es, n := n, tt := s.tt ++ List.replicate z (seq.getD a 0) } := by
  by_cases hz : 0 < z
  · refine ⟨z, n', ?_⟩
    rw [if_pos hz]
    unfold MtfD.endRun
    simp only [if_true]
    rw [if_neg (by omega), hy]
    rfl
  · refine ⟨s.es, s.n, ?_⟩
    have : z = 0 := by omega
    subst this
    rw [if_neg hz]
    unfold MtfD.endRun
    rw [hrun]
    obtain ⟨yy, run, es, n, tt⟩ := s
    simp only at hrun
    subst hrun
    simp

/-- The values that are still to be written. -/
def encRest (eob : Nat) : List Nat → Nat → List Nat → List Nat
  | _, z, [] => flushZeros z ++ [eob]
  | yy, z, x :: ls =>
    if yy.head? = some x then encRest eob yy (z + 1) ls
    else flushZeros z ++ (yy.idxOf x + 1) :: encRest eob (x :: yy.erase x) 0 ls

theorem encRest_fold (eob : Nat) : ∀ (ls : List Nat) (s : MtfE),
    (ls.foldl mtfEncStep s).out ++ flushZeros (ls.foldl mtfEncStep s).zPend ++ [eob] =
      s.out ++ encRest eob s.yy s.zPend ls
  | [], s => by simp [encRest]
  | x :: ls, s => by
    rw [List.foldl_cons, encRest_fold eob ls, encRest, mtfEncStep]
    by_cases h : s.yy.head? = some x
    · rw [if_pos h, if_pos h]
    · rw [if_neg h, if_neg h]; simp

theorem decode_encRest {seq : List Nat} {k max : Nat} (hk : 1 ≤ k) (hmax : max < 2 * 1024 * 1024) :
    ∀ (ls : List Nat) (yy : List Nat) (z : Nat) (s : MtfD) (rest : List Nat), yy.Nodup → (∀ x, x ∈ yy ↔ x < k) →
    (∀ x ∈ ls, x < k) → s.yy = yy ++ rest → s.run = false → s.tt.length + z + ls.length ≤ max →
    ∀ a t, yy = a :: t →
    mtfDecode seq (k + 1) max s (encRest (k + 1) yy z ls) =
      some (s.tt ++ List.replicate z (seq.getD a 0) ++ ls.map fun x => seq.getD x 0)
  | [], yy, z, s, rest, hnd, hmem, hls, hyy, hrun, hlen, a, t, hat => by
    simp only [List.length_nil] at hlen
    rw [encRest]
    obtain ⟨n', hn'⟩ := decode_flush seq (k + 1) max (z := z) s [k + 1] hrun (by omega)
    rw [hn', mtfDecode, mtfDecStep, if_neg (by omega)]
    obtain ⟨es, n, he⟩ := endRun_spec (seq := seq) (max := max) (s := s) (z := z) (n' := n') (a := a) (t := t ++ rest)
      hrun (by rw [hyy, hat]; rfl) (by omega)
    rw [he]
    simp
  | x :: ls, yy, z, s, rest, hnd, hmem, hls, hyy, hrun, hlen, a, t, hat => by
    have hls' : ∀ y ∈ ls, y < k := fun y hy => hls y (List.mem_cons_of_mem _ hy)
    simp only [List.length_cons] at hlen
    rw [encRest]
    by_cases hx : yy.head? = some x
    · rw [if_pos hx, decode_encRest hk hmax ls yy (z + 1) s rest hnd hmem hls' hyy hrun (by omega) a t hat]
      rw [hat] at hx
      simp only [List.head?_cons, Option.some.injEq] at hx
      subst hx
      simp [List.replicate_succ']
    · rw [if_neg hx]
      obtain ⟨n', hn'⟩ := decode_flush seq (k + 1) max (z := z) s
        ((yy.idxOf x + 1) :: encRest (k + 1) (x :: yy.erase x) 0 ls) hrun (by omega)
      have hxm : x ∈ yy := (hmem x).2 (hls x List.mem_cons_self)
      have hidx : yy.idxOf x < yy.length := List.idxOf_lt_length_of_mem hxm
      have hylen : yy.length ≤ k := by
        have hsub : yy ⊆ List.range k := fun y hy => List.mem_range.2 ((hmem y).1 hy)
        have := (List.subperm_of_subset hnd hsub).length_le
        simpa using this
      have hne : yy.idxOf x ≠ 0 := by
        intro h0
        apply hx
        rw [hat] at h0 ⊢
        rw [List.idxOf_cons] at h0
        by_cases hax : a = x
        · simp [hax]
        · have : (a == x) = false := by simpa using hax
          rw [this] at h0
          simp at h0
      rw [hn', mtfDecode, mtfDecStep, if_neg (by omega)]
      obtain ⟨es, n, he⟩ := endRun_spec (seq := seq) (max := max) (s := s) (z := z) (n' := n') (a := a) (t := t ++ rest)
        hrun (by rw [hyy, hat]; rfl) (by omega)
      rw [he]
      simp only
      rw [if_neg (by omega), if_neg (by simp; omega)]
      have huc : s.yy.getD (yy.idxOf x + 1 - 1) 0 = x := by
        rw [hyy, Nat.add_sub_cancel, List.getD_append _ _ _ _ hidx, List.getD_eq_getElem _ _ hidx]
        exact List.getElem_idxOf hidx
      have her : s.yy.eraseIdx (yy.idxOf x + 1 - 1) = yy.erase x ++ rest := by
        rw [hyy, Nat.add_sub_cancel, List.eraseIdx_append_of_lt_length hidx, List.erase_eq_eraseIdx_of_idxOf (i := yy.idxOf x)]
        rfl
      simp only [huc, her]
      rw [decode_encRest hk hmax ls (x :: yy.erase x) 0 _ rest (a := x) (t := yy.erase x)]
      · simp
      · exact List.nodup_cons.2 ⟨hnd.not_mem_erase, hnd.erase x⟩
      · intro y
        rw [List.mem_cons, hnd.mem_erase_iff, hmem]
        constructor
        · rintro (rfl | ⟨_, h⟩)
          · exact hls y List.mem_cons_self
          · exact h
        · intro h
          by_cases hyx : y = x
          · exact Or.inl hyx
          · exact Or.inr ⟨hyx, h⟩
      · exact hls'
      · rfl
      · rfl
      · simp; omega
      · rfl

end Simox.Bz
