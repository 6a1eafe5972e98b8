import Verif.Bz.BitModel
import Mathlib.Tactic.Ring
import Mathlib.Tactic.Linarith

/-!
# bzip2: bits: lemmas
-/

namespace Simox.Bz

theorem toBits_length : ∀ n v, (toBits n v).length = n
  | 0, _ => rfl
  | n + 1, v => by simp [toBits, toBits_length n v]

theorem toBits_add : ∀ m n v, toBits (m + n) v = toBits m (v / 2 ^ n) ++ toBits n v
  | 0, n, v => by simp [toBits]
  | m + 1, n, v => by
    rw [show m + 1 + n = (m + n) + 1 by omega]
    simp only [toBits, List.cons_append, toBits_add m n v, Nat.testBit_div_two_pow]

theorem toBits_mod : ∀ n v m, n ≤ m → toBits n (v % 2 ^ m) = toBits n v
  | 0, _, _, _ => rfl
  | n + 1, v, m, h => by
    simp only [toBits, toBits_mod n v m (by omega), Nat.testBit_mod_two_pow]
    simp [show n < m by omega]

theorem ofBits_foldl (l : List Bool) : ∀ a, l.foldl (fun a b => 2 * a + b.toNat) a = a * 2 ^ l.length + ofBits l := by
  induction l with
  | nil => intro a; simp [ofBits]
  | cons b l ih =>
    intro a
    simp only [List.foldl_cons, List.length_cons, ofBits]
    rw [ih, ih (2 * 0 + b.toNat)]
    ring

theorem ofBits_nil : ofBits [] = 0 := rfl

theorem ofBits_cons (b : Bool) (l : List Bool) : ofBits (b :: l) = b.toNat * 2 ^ l.length + ofBits l := by
  rw [ofBits, List.foldl_cons, ofBits_foldl]; ring

theorem ofBits_append (a b : List Bool) : ofBits (a ++ b) = ofBits a * 2 ^ b.length + ofBits b := by
  rw [ofBits, List.foldl_append, ofBits_foldl]; rfl

theorem ofBits_lt (l : List Bool) : ofBits l < 2 ^ l.length := by
  induction l with
  | nil => simp [ofBits]
  | cons b l ih =>
    rw [ofBits_cons, List.length_cons, pow_succ]
    cases b <;> simp <;> omega

theorem ofBits_toBits : ∀ n v, ofBits (toBits n v) = v % 2 ^ n
  | 0, v => by simp [toBits, ofBits, Nat.mod_one]
  | n + 1, v => by
    rw [toBits, ofBits_cons, toBits_length, ofBits_toBits n v, Nat.toNat_testBit, pow_succ, Nat.mod_mul]
    ring

theorem toBits_ofBits : ∀ l : List Bool, toBits l.length (ofBits l) = l
  | [] => rfl
  | b :: l => by
    have h := ofBits_lt l
    rw [List.length_cons, toBits]
    congr 1
    · rw [ofBits_cons, mul_comm, Nat.testBit_two_pow_mul_add _ h]
      cases b <;> simp
    · rw [ofBits_cons, ← toBits_mod l.length _ l.length le_rfl, Nat.mul_add_mod_of_lt' h, toBits_ofBits l]
where
  Nat.mul_add_mod_of_lt' {a b c : Nat} (h : c < b) : (a * b + c) % b = c := by
    rw [Nat.add_comm, Nat.add_mul_mod_self_right, Nat.mod_eq_of_lt h]

theorem toBits_zero : ∀ n, toBits n 0 = List.replicate n false
  | 0 => rfl
  | n + 1 => by simp [toBits, toBits_zero n, List.replicate_succ]

theorem byteBits_append (a b : List Nat) : byteBits (a ++ b) = byteBits a ++ byteBits b := by
  simp [byteBits]

theorem byteBits_length (l : List Nat) : (byteBits l).length = 8 * l.length := by
  induction l with
  | nil => rfl
  | cons a l ih =>
    rw [byteBits, List.flatMap_cons, List.length_append, toBits_length]
    rw [byteBits] at ih
    rw [ih, List.length_cons]; omega

/-! ## Writing -/

/-- The bits written so far. -/
structure WInv (w : BitW) (bits : List Bool) : Prop where
  live : w.live ≤ 32
  bytes : ∀ b ∈ w.out, b < 256
  repr : ∃ q, q < 2 ^ w.live ∧ w.buff = q * 2 ^ (32 - w.live) ∧ bits = byteBits w.out ++ toBits w.live q

theorem wInv_start : WInv .start [] := ⟨by simp [BitW.start], by simp [BitW.start], 0, by simp [BitW.start],
  by simp [BitW.start], rfl⟩

theorem wInv_byte {w : BitW} {bits : List Bool} (h : WInv w bits) (h8 : 8 ≤ w.live) : WInv w.byte bits := by
  obtain ⟨hl, hb, q, hq, hbuff, hbits⟩ := h
  obtain ⟨l, hl'⟩ : ∃ l, w.live = 8 + l := ⟨w.live - 8, by omega⟩
  have hlt : w.buff >>> 24 < 256 := by
    rw [hbuff, Nat.shiftRight_eq_div_pow]
    apply Nat.div_lt_of_lt_mul
    calc q * 2 ^ (32 - w.live) < 2 ^ w.live * 2 ^ (32 - w.live) := Nat.mul_lt_mul_of_pos_right hq (by positivity)
      _ = 2 ^ 32 := by rw [← pow_add]; congr 1; omega
      _ = 2 ^ 24 * 256 := by norm_num
  have htop : w.buff >>> 24 = q / 2 ^ l := by
    rw [hbuff, Nat.shiftRight_eq_div_pow, show (24 : Nat) = l + (32 - w.live) by omega, pow_add]
    exact Nat.mul_div_mul_right _ _ (by positivity)
  refine ⟨by simp [BitW.byte]; omega, ?_, q % 2 ^ l, ?_, ?_, ?_⟩
  · intro b hb'
    simp only [BitW.byte, List.mem_append, List.mem_singleton] at hb'
    rcases hb' with h | h
    · exact hb b h
    · rw [h]; omega
  · simp only [BitW.byte, hl', Nat.add_sub_cancel_left]
    exact Nat.mod_lt _ (by positivity)
  · simp only [BitW.byte, hl', Nat.add_sub_cancel_left, Nat.shiftLeft_eq, hbuff]
    have : 2 ^ 32 = 2 ^ l * 2 ^ (32 - l) := by rw [← pow_add]; congr 1; omega
    rw [mul_assoc, ← pow_add, show 32 - (8 + l) + 8 = 32 - l by omega, this, Nat.mul_mod_mul_right]
  · simp only [BitW.byte, hl', Nat.add_sub_cancel_left, hbits]
    rw [toBits_add, byteBits_append, Nat.mod_eq_of_lt hlt, htop, toBits_mod l q l le_rfl]
    simp [byteBits]

theorem wInv_need (w : BitW) {bits : List Bool} (h : WInv w bits) : WInv w.need bits ∧ w.need.live < 8 := by
  rw [BitW.need]
  split
  · rename_i h8
    exact wInv_need w.byte (wInv_byte h h8)
  · exact ⟨h, by omega⟩
termination_by w.live
decreasing_by simp [BitW.byte]; omega

theorem wInv_bsW {w : BitW} {bits : List Bool} (h : WInv w bits) {n v : Nat} (hn : n ≤ 24) (hv : v < 2 ^ n) :
    WInv (bsW w n v) (bits ++ toBits n v) := by
  obtain ⟨h', hl8⟩ := wInv_need w h
  unfold bsW
  generalize w.need = u at *
  obtain ⟨hl, hb, q, hq, hbuff, hbits⟩ := h'
  have hsh : v <<< (32 - u.live - n) < 2 ^ (32 - u.live) := by
    rw [Nat.shiftLeft_eq]
    calc v * 2 ^ (32 - u.live - n) < 2 ^ n * 2 ^ (32 - u.live - n) := Nat.mul_lt_mul_of_pos_right hv (by positivity)
      _ = 2 ^ (32 - u.live) := by rw [← pow_add]; congr 1; omega
  have hsh32 : v <<< (32 - u.live - n) % 2 ^ 32 = v <<< (32 - u.live - n) :=
    Nat.mod_eq_of_lt (lt_of_lt_of_le hsh (Nat.pow_le_pow_right (by norm_num) (by omega)))
  refine ⟨by simp; omega, hb, q * 2 ^ n + v, ?_, ?_, ?_⟩
  · simp only [pow_add]
    calc q * 2 ^ n + v < q * 2 ^ n + 2 ^ n := by omega
      _ = (q + 1) * 2 ^ n := by ring
      _ ≤ 2 ^ u.live * 2 ^ n := Nat.mul_le_mul_right _ hq
  · simp only [hsh32, hbuff]
    rw [mul_comm q, ← Nat.two_pow_add_eq_or_of_lt hsh, Nat.shiftLeft_eq,
      show 32 - u.live = n + (32 - u.live - n) by omega, pow_add, show 32 - (u.live + n) = 32 - u.live - n by omega,
      show n + (32 - u.live - n) - n = 32 - u.live - n by omega]
    ring
  · simp only [hbits, List.append_assoc]
    rw [toBits_add, show (q * 2 ^ n + v) / 2 ^ n = q by
        rw [mul_comm, Nat.mul_add_div (by positivity), Nat.div_eq_of_lt hv]; rfl]
    congr 2
    rw [← toBits_mod n (q * 2 ^ n + v) n le_rfl, Nat.add_comm, Nat.add_mul_mod_self_right, Nat.mod_eq_of_lt hv]

theorem wInv_writeFields : ∀ (fs : List Field) {w : BitW} {bits : List Bool}, WInv w bits →
    (∀ f ∈ fs, f.1 ≤ 24 ∧ f.2 < 2 ^ f.1) → WInv (writeFields w fs) (bits ++ fs.flatMap fun f => toBits f.1 f.2)
  | [], w, bits, h, _ => by simpa [writeFields] using h
  | f :: fs, w, bits, h, hf => by
    have h1 := wInv_bsW h (hf f List.mem_cons_self).1 (hf f List.mem_cons_self).2
    have h2 := wInv_writeFields fs h1 (fun g hg => hf g (List.mem_cons_of_mem _ hg))
    rw [List.flatMap_cons, ← List.append_assoc]
    exact h2

theorem finish_spec (w : BitW) {bits : List Bool} (h : WInv w bits) :
    (∀ b ∈ w.finish.out, b < 256) ∧ ∃ p, p < 8 ∧ byteBits w.finish.out = bits ++ List.replicate p false := by
  rw [BitW.finish]
  split
  · rename_i h0
    by_cases h8 : 8 ≤ w.live
    · exact finish_spec w.byte (wInv_byte h h8)
    · have hfin : w.byte.finish = w.byte := by
        rw [BitW.finish, dif_neg]; simp [BitW.byte]; omega
      rw [hfin]
      obtain ⟨hl, hb, q, hq, hbuff, hbits⟩ := h
      have htop : w.buff >>> 24 = q * 2 ^ (8 - w.live) := by
        rw [hbuff, Nat.shiftRight_eq_div_pow, show 32 - w.live = 8 - w.live + 24 by omega, pow_add, ← mul_assoc]
        exact Nat.mul_div_cancel _ (by positivity)
      have hlt : w.buff >>> 24 < 256 := by
        rw [htop]
        calc q * 2 ^ (8 - w.live) < 2 ^ w.live * 2 ^ (8 - w.live) := Nat.mul_lt_mul_of_pos_right hq (by positivity)
          _ = 2 ^ 8 := by rw [← pow_add]; congr 1; omega
          _ = 256 := by norm_num
      refine ⟨?_, 8 - w.live, by omega, ?_⟩
      · intro b hb'
        simp only [BitW.byte, List.mem_append, List.mem_singleton] at hb'
        rcases hb' with h | h
        · exact hb b h
        · rw [h]; omega
      · simp only [BitW.byte, byteBits_append, hbits, List.append_assoc]
        congr 1
        rw [Nat.mod_eq_of_lt hlt, htop]
        simp only [byteBits, List.flatMap_cons, List.flatMap_nil, List.append_nil]
        rw [show toBits 8 (q * 2 ^ (8 - w.live)) = toBits (w.live + (8 - w.live)) (q * 2 ^ (8 - w.live)) by
            congr 1; omega, toBits_add, Nat.mul_div_cancel _ (by positivity)]
        congr 1
        rw [← toBits_mod _ _ (8 - w.live) le_rfl, Nat.mul_mod_left, toBits_zero]
  · rename_i h0
    obtain ⟨hl, hb, q, hq, hbuff, hbits⟩ := h
    refine ⟨hb, 0, by norm_num, ?_⟩
    rw [hbits, show w.live = 0 by omega]
    simp [toBits]
termination_by w.live
decreasing_by simp [BitW.byte]; omega

/-! ## Reading -/

/-- The bits that are still to be read. -/
structure RInv (r : BitR) (bits : List Bool) : Prop where
  live : r.live ≤ 32
  buff : r.buff < 2 ^ 32
  bytes : ∀ b ∈ r.inp, b < 256
  repr : bits = toBits r.live r.buff ++ byteBits r.inp

theorem getBits_append (bs rest : List Bool) : getBits bs.length (bs ++ rest) = .ok (ofBits bs) rest := by
  simp [getBits]

theorem getBits_toBits {n v : Nat} (hv : v < 2 ^ n) (rest : List Bool) :
    getBits n (toBits n v ++ rest) = .ok v rest := by
  have := getBits_append (toBits n v) rest
  rw [toBits_length, ofBits_toBits, Nat.mod_eq_of_lt hv] at this
  exact this

theorem getBits_more {n : Nat} {bs : List Bool} : getBits n bs = .more ↔ bs.length < n := by
  unfold getBits
  split <;> simp <;> omega

theorem buf_take {n buff live : Nat} (h : n ≤ live) :
    toBits live buff = toBits n (buff >>> (live - n) % 2 ^ n) ++ toBits (live - n) buff := by
  rw [toBits_mod _ _ _ le_rfl, Nat.shiftRight_eq_div_pow, ← toBits_add]
  congr 1; omega

theorem bufGet_spec {n : Nat} (hn : n ≤ 24) : ∀ (inp : List Nat) (buff live : Nat) (bits : List Bool),
    RInv ⟨buff, live, inp⟩ bits → live ≤ 31 →
    match bufGet n buff live inp with
    | (some v, r) => r.live ≤ 31 ∧ ∃ rest, RInv r rest ∧ getBits n bits = .ok v rest
    | (none, r) => r.live ≤ 31 ∧ r.live < n ∧ r.inp = [] ∧ RInv r bits ∧ getBits n bits = .more := by
  have key : ∀ (inp : List Nat) (buff live : Nat) (bits : List Bool), RInv ⟨buff, live, inp⟩ bits → live ≤ 31 →
      n ≤ live → ∃ rest, RInv ⟨buff, live - n, inp⟩ rest ∧ getBits n bits = .ok (buff >>> (live - n) % 2 ^ n) rest := by
    intro inp buff live bits h hl hnl
    obtain ⟨_, hb, hby, hr⟩ := h
    refine ⟨toBits (live - n) buff ++ byteBits inp, ⟨by simp; omega, hb, hby, rfl⟩, ?_⟩
    simp only at hr
    rw [hr, buf_take hnl, List.append_assoc]
    exact getBits_toBits (Nat.mod_lt _ (by positivity)) _
  intro inp
  induction inp with
  | nil =>
    intro buff live bits h hl
    unfold bufGet
    by_cases hnl : n ≤ live
    · rw [if_pos hnl]
      exact ⟨by simp; omega, key [] buff live bits h hl hnl⟩
    · rw [if_neg hnl]
      refine ⟨hl, by simp; omega, rfl, h, ?_⟩
      rw [getBits_more, h.repr]
      simp [toBits_length, byteBits]; omega
  | cons b inp ih =>
    intro buff live bits h hl
    unfold bufGet
    by_cases hnl : n ≤ live
    · rw [if_pos hnl]
      exact ⟨by simp; omega, key _ buff live bits h hl hnl⟩
    · rw [if_neg hnl]
      apply ih
      · obtain ⟨_, hb, hby, hr⟩ := h
        have hb' : b < 2 ^ 8 := hby b List.mem_cons_self
        refine ⟨by simp; omega, ?_, fun x hx => hby x (List.mem_cons_of_mem _ hx), ?_⟩
        · simp only
          exact Nat.or_lt_two_pow (Nat.mod_lt _ (by positivity)) (by omega)
        · simp only at hr ⊢
          rw [hr, byteBits, List.flatMap_cons, ← byteBits, ← List.append_assoc]
          congr 1
          have e1 : buff <<< 8 % 2 ^ 32 = 2 ^ 8 * (buff % 2 ^ 24) := by
            rw [Nat.shiftLeft_eq, show (2 : Nat) ^ 32 = 2 ^ 24 * 2 ^ 8 by norm_num, Nat.mul_mod_mul_right]; ring
          rw [e1, ← Nat.two_pow_add_eq_or_of_lt hb', toBits_add, Nat.mul_add_div (by positivity),
            Nat.div_eq_of_lt hb', Nat.add_zero, toBits_mod _ _ _ (by omega)]
          congr 1
          rw [← toBits_mod 8 (2 ^ 8 * (buff % 2 ^ 24) + b) 8 le_rfl, Nat.mul_add_mod, Nat.mod_eq_of_lt hb']
      · omega

end Simox.Bz
