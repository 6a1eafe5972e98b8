import Verif.Rle.Model

namespace Simox.Rle

/-! ## Decoder on encoded tokens -/

/-- Continue decoding: what the decoder does after a token. -/
def cont (marker : UInt8) (emitted : List UInt8) (r : List UInt8) : Option (List UInt8) :=
  if r = [] then some emitted else (uncompressLoop marker r).map (emitted ++ ·)

theorem and80 (c : Nat) (h : c < 128) : c &&& 0x80 = 0 := by
  have : ∀ c : Fin 128, c.val &&& 0x80 = 0 := by decide +kernel
  exact this ⟨c, h⟩

theorem shr8_lt (c : Nat) (h : c < 32768) : c >>> 8 < 128 := by
  rw [Nat.shiftRight_eq_div_pow]; omega

theorem hi_facts (k : Nat) (h : k < 128) :
    (k ||| 0x80) < 256 ∧ (k ||| 0x80) > 2 ∧ (k ||| 0x80) &&& 0x80 ≠ 0 ∧
      (k ||| 0x80) &&& 0x7f = k := by
  have : ∀ k : Fin 128, (k.val ||| 0x80) < 256 ∧ (k.val ||| 0x80) > 2 ∧
      (k.val ||| 0x80) &&& 0x80 ≠ 0 ∧ (k.val ||| 0x80) &&& 0x7f = k.val := by decide +kernel
  exact this ⟨k, h⟩

theorem toNat_ofNat_lt (n : Nat) (h : n < 256) : (UInt8.ofNat n).toNat = n := by
  simp [UInt8.toNat_ofNat']; omega

theorem decode_plain (marker s : UInt8) (h : s ≠ marker) (r : List UInt8) :
    uncompressLoop marker (s :: r) = cont marker [s] r := by
  rw [uncompressLoop.eq_def]; simp [h, cont]

theorem decode_marker (marker : UInt8) (c : Nat) (hc : c ≤ 2) (r : List UInt8) :
    uncompressLoop marker (marker :: UInt8.ofNat c :: r) =
      cont marker (List.replicate (c + 1) marker) r := by
  rw [uncompressLoop.eq_def]
  have := toNat_ofNat_lt c (by omega)
  simp only [if_true, this, if_pos hc, cont]

theorem decode_replicate (marker s : UInt8) (h : s ≠ marker) (n : Nat) (hn : 0 < n)
    (r : List UInt8) :
    uncompressLoop marker (List.replicate n s ++ r) = cont marker (List.replicate n s) r := by
  induction n with
  | zero => omega
  | succ n ih =>
    rw [List.replicate_succ, List.cons_append, decode_plain _ _ h]
    by_cases hn0 : n = 0
    · subst hn0; simp
    · rw [cont, if_neg (by simp [hn0]), ih (by omega)]
      by_cases hr : r = []
      · subst hr; simp [cont]
      · simp only [cont, hr, if_false, Option.map_map]
        congr 1

theorem decode_rep (marker s : UInt8) (n : Nat) (h1 : 2 ≤ n) (h2 : n ≤ 32768) (r : List UInt8) :
    uncompressLoop marker (writeRep marker s n ++ r) = cont marker (List.replicate n s) r := by
  unfold writeRep
  split
  · split
    · subst s
      have := decode_marker marker (n - 1) (by omega) r
      rw [show n - 1 + 1 = n by omega] at this
      simpa using this
    · exact decode_replicate _ _ (by assumption) _ (by omega) _
  · rename_i h3
    by_cases hc : n - 1 ≥ 128
    · have hk := shr8_lt (n - 1) (by omega)
      obtain ⟨a1, a2, a3, a4⟩ := hi_facts _ hk
      have hlo : (n - 1) &&& 0xff < 256 := by
        rw [show (0xff : Nat) = 2 ^ 8 - 1 by rfl, Nat.and_two_pow_sub_one_eq_mod]; omega
      simp only [hc, if_true, List.cons_append, List.nil_append]
      rw [uncompressLoop.eq_def]
      simp only [if_true, toNat_ofNat_lt _ a1, toNat_ofNat_lt _ hlo, if_neg (Nat.not_le.mpr a2),
        if_pos a3, a4]
      have hn : ((n - 1) >>> 8) <<< 8 + ((n - 1) &&& 0xff) + 1 = n := by
        rw [show (0xff : Nat) = 2 ^ 8 - 1 by rfl, Nat.and_two_pow_sub_one_eq_mod,
          Nat.shiftRight_eq_div_pow, Nat.shiftLeft_eq]
        omega
      simp only [hn, cont]
    · have hlo : (n - 1) &&& 0xff = n - 1 := by
        rw [show (0xff : Nat) = 2 ^ 8 - 1 by rfl, Nat.and_two_pow_sub_one_eq_mod]; omega
      simp only [hc, if_false, List.cons_append, List.nil_append, hlo]
      rw [uncompressLoop.eq_def]
      have ht := toNat_ofNat_lt (n - 1) (by omega)
      have h80 := and80 (n - 1) (by omega)
      simp only [if_true, ht, if_neg (show ¬ n - 1 ≤ 2 by omega), h80, ne_eq, not_true, if_false,
        show n - 1 + 1 = n by omega, cont]

theorem decode_nonRep (marker s : UInt8) (r : List UInt8) :
    uncompressLoop marker (writeNonRep marker s ++ r) = cont marker [s] r := by
  unfold writeNonRep
  split
  · subst s; have := decode_marker marker 0 (by omega) r; simpa using this
  · simpa using decode_plain marker s (by assumption) r

theorem writeRep_ne_nil (marker s : UInt8) (n : Nat) (h : 0 < n) : writeRep marker s n ≠ [] := by
  unfold writeRep
  split
  · split <;> simp; omega
  · simp

theorem writeNonRep_ne_nil (marker s : UInt8) : writeNonRep marker s ≠ [] := by
  unfold writeNonRep; split <;> simp

/-! ## Inner run loop -/

/-- The run loop started on `count - 1` copies of `b1` followed by `b2 :: l`. -/
theorem runLoop_spec (b1 b2 : UInt8) (count : Nat) (l : List UInt8) (h2 : 2 ≤ count)
    (hc : count ≤ 32768) :
    let r := runLoop b1 b2 count l
    r.2.1 ≤ 32768 ∧ count ≤ r.2.1 ∧ r.2.1 + r.2.2.length = count + l.length ∧
    List.replicate (count - 1) b1 ++ b2 :: l =
      List.replicate (r.2.1 - 1) b1 ++ r.1 :: r.2.2 := by
  induction l generalizing b2 count with
  | nil => simp [runLoop, hc]
  | cons x rest ih =>
    unfold runLoop
    split
    · rename_i h
      obtain ⟨hb, hlt⟩ := h
      subst hb
      have := ih x (count + 1) (by omega) (by omega)
      simp only at this ⊢
      obtain ⟨a, b, c, d⟩ := this
      refine ⟨a, by omega, by simp; omega, ?_⟩
      rw [← d]
      have : count + 1 - 1 = (count - 1) + 1 := by omega
      rw [this, List.replicate_succ']
      simp
    · simp [hc]

/-- If the loop did not stop on a differing byte, `b1` is still current. -/
theorem runLoop_count_ge3 (b1 b2 : UInt8) (count : Nat) (l : List UInt8) (h : b1 = b2)
    (hne : (runLoop b1 b2 count l).1 ≠ b1) : count + 1 ≤ (runLoop b1 b2 count l).2.1 := by
  cases l with
  | nil => simp [runLoop] at hne; exact absurd h.symm hne
  | cons x rest =>
    unfold runLoop at hne ⊢
    split
    · rename_i hc
      simp only [hc, and_self, if_true] at hne
      clear hne h hc
      have mono : ∀ (l : List UInt8) (b2 : UInt8) (c : Nat), c ≤ (runLoop b1 b2 c l).2.1 := by
        intro l
        induction l with
        | nil => intro b2 c; simp [runLoop]
        | cons y l ih =>
          intro b2 c; unfold runLoop; split
          · exact Nat.le_trans (Nat.le_succ c) (ih y (c + 1))
          · simp
      exact mono rest x (count + 1)
    · rename_i hc
      rw [if_neg hc] at hne
      exact absurd h.symm hne

/-! ## One iteration of the main loop -/

/-- The input bytes a loop state still has to encode. -/
def pending (s : St) : List UInt8 :=
  if s.count = 0 then s.rest
  else if s.count = 1 then s.byte1 :: s.rest
  else s.byte1 :: s.byte2 :: s.rest

/-- Loop head invariant: exactly two bytes have been fetched. -/
def Head (s : St) : Prop := s.count = 2

/-- State in which the loop may stop. -/
def Stop (s : St) : Prop := s.rest = [] ∧ s.count ≤ 1

/-- A token appended in one iteration: decodes to `syms` for every continuation. -/
structure Tok (marker : UInt8) (emitted syms : List UInt8) : Prop where
  dec : ∀ r, uncompressLoop marker (emitted ++ r) = cont marker syms r
  ne : emitted ≠ []
  len : emitted.length ≤ syms.length + syms.count marker
  consumed : syms ≠ []

theorem tok_rep (marker s : UInt8) (n : Nat) (h1 : 2 ≤ n) (h2 : n ≤ 32768) :
    Tok marker (writeRep marker s n) (List.replicate n s) where
  dec := decode_rep marker s n h1 h2
  ne := writeRep_ne_nil _ _ _ (by omega)
  consumed := by simp; omega
  len := by
    unfold writeRep
    split
    · split
      · simp; omega
      · simp
    · dsimp only; split <;> simp <;> omega

theorem tok_nonRep (marker s : UInt8) : Tok marker (writeNonRep marker s) [s] where
  dec := decode_nonRep marker s
  ne := writeNonRep_ne_nil _ _
  consumed := by simp
  len := by unfold writeNonRep; split <;> simp_all

theorem pending_fetch1 (b1 b2 : UInt8) (r : List UInt8) :
    pending (fetch { byte1 := b1, byte2 := b2, count := 1, rest := r }) = b1 :: r ∧
    (Head (fetch { byte1 := b1, byte2 := b2, count := 1, rest := r }) ∨
     ((fetch { byte1 := b1, byte2 := b2, count := 1, rest := r }).rest = [] ∧
      (fetch { byte1 := b1, byte2 := b2, count := 1, rest := r }).count = 1)) := by
  cases r <;> simp [fetch, pending, Head]

theorem body_spec (marker : UInt8) (s : St) (h : Head s) :
    ∃ syms, Tok marker (body marker s).1 syms ∧
      pending s = syms ++ pending (body marker s).2 ∧
      (Head (body marker s).2 ∨ ((body marker s).2.rest = [] ∧ (body marker s).2.count ≤ 1)) := by
  unfold Head at h
  have hp : pending s = s.byte1 :: s.byte2 :: s.rest := by simp [pending, h]
  unfold body
  split
  · rename_i heq
    have hr := runLoop_spec s.byte1 s.byte2 s.count s.rest (by omega) (by omega)
    have hge := runLoop_count_ge3 s.byte1 s.byte2 s.count s.rest heq
    revert hr hge
    generalize hrl : runLoop s.byte1 s.byte2 s.count s.rest = res
    obtain ⟨b2, count, rest⟩ := res
    simp only [h]
    intro hr hge
    obtain ⟨c1, c2, -, c4⟩ := hr
    have c4' : pending s = List.replicate (count - 1) s.byte1 ++ b2 :: rest := by
      rw [hp, ← c4]; simp
    split
    · rename_i hb
      have hfull : pending s = List.replicate count s.byte1 ++ rest := by
        rw [c4', ← hb, show count = (count - 1) + 1 by omega, List.replicate_succ']
        simp
      cases rest with
      | nil =>
        refine ⟨List.replicate count s.byte1, tok_rep _ _ _ (by omega) c1, ?_, ?_⟩
        · rw [hfull]; simp [fetch, pending]
        · right; simp [fetch]
      | cons x r =>
        refine ⟨List.replicate count s.byte1, tok_rep _ _ _ (by omega) c1, ?_, ?_⟩
        · have := (pending_fetch1 x b2 r).1
          simp only [this]; exact hfull
        · rcases (pending_fetch1 x b2 r).2 with h' | ⟨h1, h2⟩
          · exact Or.inl h'
          · exact Or.inr ⟨h1, Nat.le_of_eq h2⟩
    · rename_i hb
      have h3 := hge (fun e => hb e.symm)
      refine ⟨List.replicate (count - 1) s.byte1, tok_rep _ _ _ (by omega) (by omega), ?_, ?_⟩
      · have := (pending_fetch1 b2 b2 rest).1
        simp only [this]; exact c4'
      · rcases (pending_fetch1 b2 b2 rest).2 with h' | ⟨h1, h2⟩
        · exact Or.inl h'
        · exact Or.inr ⟨h1, Nat.le_of_eq h2⟩
  · refine ⟨[s.byte1], tok_nonRep _ _, ?_, ?_⟩
    · have := (pending_fetch1 s.byte2 s.byte2 s.rest).1
      simp only [this, hp]; rfl
    · rcases (pending_fetch1 s.byte2 s.byte2 s.rest).2 with h' | ⟨h1, h2⟩
      · exact Or.inl h'
      · exact Or.inr ⟨h1, Nat.le_of_eq h2⟩

theorem mainLoop_spec (marker : UInt8) (fuel : Nat) (s : St) (h : Head s)
    (hf : (pending s).length ≤ fuel) :
    ∃ out, mainLoop marker fuel s = some out ∧ out ≠ [] ∧
      uncompressLoop marker out = some (pending s) ∧
      out.length ≤ (pending s).length + (pending s).count marker := by
  induction fuel generalizing s with
  | zero =>
    have : pending s = s.byte1 :: s.byte2 :: s.rest := by
      unfold Head at h; simp [pending, h]
    rw [this] at hf; simp at hf
  | succ fuel ih =>
    obtain ⟨syms, ht, hp, hn⟩ := body_spec marker s h
    unfold mainLoop
    revert ht hp hn
    generalize hb : body marker s = res
    obtain ⟨em, s'⟩ := res
    simp only
    intro ht hp hn
    by_cases hc : s'.count ≥ 2
    · have hhead : Head s' := by
        rcases hn with h' | ⟨_, h'⟩
        · exact h'
        · omega
      have hlen : (pending s').length ≤ fuel := by
        have := congrArg List.length hp
        have hs : 0 < syms.length := List.length_pos_iff.mpr ht.consumed
        simp at this; omega
      obtain ⟨out, h1, h2, h3, h4⟩ := ih s' hhead hlen
      refine ⟨em ++ out, ?_, ?_, ?_, ?_⟩
      · simp [hc, h1]
      · simp [ht.ne]
      · rw [ht.dec, cont, if_neg h2, h3, hp]; rfl
      · rw [hp]
        have := ht.len
        simp only [List.length_append, List.count_append]; omega
    · have hn' : s'.rest = [] ∧ s'.count ≤ 1 := by
        rcases hn with h' | h'
        · unfold Head at h'; omega
        · exact h'
      have hcond : ¬ (s'.rest ≠ [] ∨ s'.count ≥ 2) := by simp [hn'.1]; omega
      rw [if_neg hcond]
      by_cases h1 : s'.count = 1
      · have hpe : pending s' = [s'.byte1] := by simp [pending, h1, hn'.1]
        have t2 := tok_nonRep marker s'.byte1
        refine ⟨_, rfl, by simp [ht.ne], ?_, ?_⟩
        · rw [if_pos h1, ht.dec, cont, if_neg t2.ne]
          have := t2.dec []
          rw [List.append_nil] at this
          rw [this, hp, hpe]; simp [cont]
        · rw [if_pos h1, hp, hpe]
          have := ht.len; have := t2.len
          simp only [List.length_append, List.count_append]; omega
      · have h0 : s'.count = 0 := by omega
        have hpe : pending s' = [] := by simp [pending, h0, hn'.1]
        refine ⟨_, rfl, by simp [ht.ne], ?_, ?_⟩
        · rw [if_neg h1, ht.dec, hp, hpe]; simp [cont]
        · rw [if_neg h1, hp, hpe]
          have := ht.len
          simp only [List.append_nil]; omega

/-- Result of `compress` on every non-empty input. -/
theorem compress_spec (inp : List UInt8) (h : inp ≠ []) :
    ∃ out, compress inp = .bytes (chooseMarker (histogram inp) :: out) ∧
      uncompressLoop (chooseMarker (histogram inp)) out = some inp ∧
      out.length ≤ inp.length + inp.count (chooseMarker (histogram inp)) := by
  cases inp with
  | nil => exact absurd rfl h
  | cons b1 r1 =>
    cases r1 with
    | nil =>
      generalize hm : chooseMarker (histogram [b1]) = m
      have t := tok_nonRep m b1
      refine ⟨writeNonRep m b1, by simp only [compress, hm], ?_, t.len⟩
      have := t.dec []
      rw [List.append_nil] at this
      rw [this]; simp [cont]
    | cons b2 r2 =>
      generalize hm : chooseMarker (histogram (b1 :: b2 :: r2)) = m
      have hp : pending { byte1 := b1, byte2 := b2, count := 2, rest := r2 } = b1 :: b2 :: r2 := by
        simp [pending]
      obtain ⟨out, h1, _, h3, h4⟩ := mainLoop_spec m (b1 :: b2 :: r2).length
        { byte1 := b1, byte2 := b2, count := 2, rest := r2 } rfl (by rw [hp]; exact Nat.le_refl _)
      refine ⟨out, ?_, by rw [h3, hp], by rw [hp] at h4; exact h4⟩
      simp only [compress, hm, h1]

/-! ## Histogram and marker -/

theorem histogram_foldl (l : List UInt8) (h : UInt8 → Nat) (x : UInt8) :
    l.foldl (fun h b => fun x => if x = b then h x + 1 else h x) h x = h x + l.count x := by
  induction l generalizing h with
  | nil => simp
  | cons b l ih =>
    rw [List.foldl_cons, ih, List.count_cons]
    by_cases hb : x = b
    · subst hb; simp; omega
    · simp only [if_neg hb, beq_iff_eq, if_neg (Ne.symm hb)]; omega

theorem histogram_eq (l : List UInt8) (x : UInt8) : histogram l x = l.count x := by
  unfold histogram; rw [histogram_foldl]; simp

theorem foldl_min (h : UInt8 → Nat) (l : List Nat) (m : UInt8) :
    let r := l.foldl (fun m i => if h (UInt8.ofNat i) < h m then UInt8.ofNat i else m) m
    h r ≤ h m ∧ ∀ i ∈ l, h r ≤ h (UInt8.ofNat i) := by
  induction l generalizing m with
  | nil => simp
  | cons a l ih =>
    simp only [List.foldl_cons]
    obtain ⟨i1, i2⟩ := ih (if h (UInt8.ofNat a) < h m then UInt8.ofNat a else m)
    constructor
    · refine Nat.le_trans i1 ?_; split <;> omega
    · intro i hi
      rcases List.mem_cons.mp hi with rfl | hi
      · refine Nat.le_trans i1 ?_; split <;> omega
      · exact i2 i hi

theorem chooseMarker_min (h : UInt8 → Nat) (b : UInt8) : h (chooseMarker h) ≤ h b := by
  obtain ⟨h0, h1⟩ := foldl_min h (List.range' 1 255) 0
  by_cases hb : b = 0
  · subst hb; exact h0
  · have hlt := b.toNat_lt
    have hne : b.toNat ≠ 0 := by
      intro e; apply hb; rw [← UInt8.ofNat_toNat (x := b), e]; rfl
    have := h1 b.toNat (by rw [List.mem_range'_1]; omega)
    rw [UInt8.ofNat_toNat] at this
    exact this

theorem sum_count (l : List UInt8) (bs : List Nat) (hn : bs.Nodup) (hb : ∀ b ∈ bs, b < 256) :
    (bs.map (fun b => l.count (UInt8.ofNat b))).sum ≤ l.length := by
  induction l with
  | nil => induction bs <;> simp_all
  | cons a l ih =>
    have key : ∀ bs : List Nat, bs.Nodup → (∀ b ∈ bs, b < 256) →
        (bs.map (fun b => (a :: l).count (UInt8.ofNat b))).sum ≤
        (bs.map (fun b => l.count (UInt8.ofNat b))).sum + (if a.toNat ∈ bs then 1 else 0) := by
      intro bs
      induction bs with
      | nil => simp
      | cons b bs ihb =>
        intro hn hb
        have ihb' := ihb (List.nodup_cons.mp hn).2 (fun x hx => hb x (List.mem_cons_of_mem _ hx))
        have hnb := (List.nodup_cons.mp hn).1
        have hb256 := hb b (List.mem_cons_self ..)
        simp only [List.map_cons, List.sum_cons, List.count_cons, beq_iff_eq, List.mem_cons]
        simp only [List.count_cons, beq_iff_eq] at ihb'
        by_cases hab : a = UInt8.ofNat b
        · have e : a.toNat = b := by rw [hab, toNat_ofNat_lt _ hb256]
          rw [if_neg (by rw [e]; exact hnb)] at ihb'
          rw [if_pos hab, if_pos (Or.inl e)]; omega
        · have e : a.toNat ≠ b := by
            intro e; apply hab; rw [← e, UInt8.ofNat_toNat]
          rw [if_neg hab]
          simp only [e, false_or]
          omega
    have := key bs hn hb
    simp only [List.length_cons]
    split at this <;> omega

theorem marker_rare (inp : List UInt8) :
    256 * inp.count (chooseMarker (histogram inp)) ≤ inp.length := by
  have hs := sum_count inp (List.range 256) List.nodup_range (fun b hb => by simpa using hb)
  have hc : ∀ bs : List Nat,
      bs.length * inp.count (chooseMarker (histogram inp)) ≤
        (bs.map (fun b => inp.count (UInt8.ofNat b))).sum := by
    intro bs
    induction bs with
    | nil => simp
    | cons b bs ih =>
      have := chooseMarker_min (histogram inp) (UInt8.ofNat b)
      rw [histogram_eq, histogram_eq] at this
      simp only [List.length_cons, List.map_cons, List.sum_cons, Nat.add_mul, Nat.one_mul]
      omega
  have := hc (List.range 256)
  rw [List.length_range] at this
  omega

end Simox.Rle
