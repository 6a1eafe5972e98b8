import Verif.Bz.StreamModel
import Verif.Bz.BlockLemmas

/-!
# bzip2: what the decompressor does with arbitrary input: lemmas
-/

namespace Simox.Bz

/-- A function that reads bits never leaves an array; if it succeeds, the result has a property and at least `k` bits are
used. -/
def Spec {α : Type} (x : Dec α) (k : Nat) (P : α → Prop) : Prop :=
  ∀ bs, x bs ≠ .ub ∧ ∀ a rest, x bs = .ok a rest → P a ∧ rest.length + k ≤ bs.length ∧ rest <:+ bs

theorem Spec.bind {α β : Type} {x : Dec α} {f : α → Dec β} {k l : Nat} {P : α → Prop} {Q : β → Prop} (hx : Spec x k P)
    (hf : ∀ a, P a → Spec (f a) l Q) : Spec (x >>= f) (k + l) Q := by
  intro bs
  obtain ⟨h1, h2⟩ := hx bs
  change Dec.bind x f bs ≠ _ ∧ ∀ a rest, Dec.bind x f bs = _ → _
  unfold Dec.bind
  cases hr : x bs with
  | ok a rest =>
    obtain ⟨ha, hl, hs⟩ := h2 a rest hr
    obtain ⟨h3, h4⟩ := hf a ha rest
    refine ⟨h3, fun b r h => ?_⟩
    obtain ⟨hb, hl', hs'⟩ := h4 b r h
    exact ⟨hb, by omega, hs'.trans hs⟩
  | more => exact ⟨by simp, fun _ _ h => by simp at h⟩
  | err => exact ⟨by simp, fun _ _ h => by simp at h⟩
  | ub => exact absurd hr h1
  | random => exact ⟨by simp, fun _ _ h => by simp at h⟩

theorem Spec.mono {α : Type} {x : Dec α} {k l : Nat} {P Q : α → Prop} (hx : Spec x k P) (hl : l ≤ k) (h : ∀ a, P a → Q a) :
    Spec x l Q := fun bs => ⟨(hx bs).1, fun a rest e => by
  obtain ⟨h1, h2, h3⟩ := (hx bs).2 a rest e
  exact ⟨h a h1, by omega, h3⟩⟩

theorem Spec.pure {α : Type} {a : α} {P : α → Prop} (h : P a) : Spec (pure a : Dec α) 0 P := fun bs =>
  ⟨by rw [pure_ok]; simp, fun b rest e => by
    rw [pure_ok] at e
    simp only [Res.ok.injEq] at e
    obtain ⟨rfl, rfl⟩ := e
    exact ⟨h, le_rfl, List.suffix_rfl⟩⟩

theorem Spec.fail {α : Type} (k : Nat) (P : α → Prop) : Spec (Dec.fail : Dec α) k P := fun _ =>
  ⟨by simp [Dec.fail], fun _ _ h => by simp [Dec.fail] at h⟩

theorem Spec.more {α : Type} (k : Nat) (P : α → Prop) : Spec (fun _ => .more : Dec α) k P := fun _ =>
  ⟨by simp, fun _ _ h => by simp at h⟩

theorem Spec.randomised {α : Type} (k : Nat) (P : α → Prop) : Spec (Dec.randomised : Dec α) k P := fun _ =>
  ⟨by simp [Dec.randomised], fun _ _ h => by simp [Dec.randomised] at h⟩

theorem Spec.ite {α : Type} {c : Prop} [Decidable c] {x y : Dec α} {k : Nat} {P : α → Prop} (hx : c → Spec x k P) (hy : ¬ c → Spec y k P) :
    Spec (if c then x else y) k P := by
  split
  · exact hx ‹_›
  · exact hy ‹_›

theorem spec_getBits (n : Nat) : Spec (getBits n) n (· < 2 ^ n) := by
  intro bs
  unfold getBits
  by_cases h : n ≤ bs.length
  · rw [if_pos h]
    refine ⟨by simp, fun a rest e => ?_⟩
    simp only [Res.ok.injEq] at e
    obtain ⟨rfl, rfl⟩ := e
    refine ⟨?_, by rw [List.length_drop]; omega, List.drop_suffix _ _⟩
    have := ofBits_lt (bs.take n)
    rwa [List.length_take, min_eq_left h] at this
  · rw [if_neg h]
    exact ⟨by simp, fun _ _ h => by simp at h⟩

theorem spec_expects : ∀ l : List Nat, Spec (expects l) 0 fun _ => True
  | [] => Spec.pure trivial
  | b :: l => by
    have h1 : Spec (expect b) 0 fun _ => True :=
      ((spec_getBits 8).bind fun a _ => Spec.ite (fun _ => Spec.pure trivial) fun _ => Spec.fail 0 _).mono (by omega) fun _ h => h
    exact (h1.bind fun _ _ => spec_expects l).mono (by omega) fun _ h => h

theorem spec_getBytes : ∀ n v : Nat, Spec (getBytes n v) 0 fun _ => True
  | 0, _ => Spec.pure trivial
  | n + 1, _ => ((spec_getBits 8).bind fun _ _ => spec_getBytes n _).mono (by omega) fun _ h => h

theorem spec_getFlags : ∀ n : Nat, Spec (getFlags n) 0 fun _ => True
  | 0 => Spec.pure trivial
  | n + 1 => ((spec_getBits 1).bind fun _ _ => (spec_getFlags n).bind (l := 0) fun _ _ => Spec.pure trivial).mono (by omega) fun _ h => h

theorem spec_getMap : ∀ l : List Bool, Spec (getMap l) 0 fun _ => True
  | [] => Spec.pure trivial
  | true :: l => ((spec_getFlags 16).bind fun _ _ => (spec_getMap l).bind (l := 0) fun _ _ => Spec.pure trivial).mono (by omega) fun _ h => h
  | false :: l => ((spec_getMap l).bind (l := 0) fun _ _ => Spec.pure trivial).mono (by omega) fun _ h => h

/-- What is known of a header that was read. -/
structure HeadOk (h : Head) : Prop where
  used : 1 ≤ nInUse h.inUse
  groups : 2 ≤ h.nGroups ∧ h.nGroups ≤ 6
  sels : 1 ≤ h.nSelectors ∧ h.nSelectors < 2 ^ 15

theorem spec_getHead (size100k : Nat) : Spec (getHead size100k) 1 HeadOk := by
  unfold getHead
  refine ((spec_expects _).bind (l := 1) fun _ _ => (spec_getBytes 4 0).bind (l := 1) fun crc _ =>
    ((spec_getBits 1).bind (l := 0) fun rand _ => (spec_getBytes 3 0).bind (l := 0) fun op _ => ?_).mono (l := 1) le_rfl fun _ h => h).mono
      (by omega) fun _ h => h
  refine Spec.ite (fun _ => Spec.fail _ _) fun _ => ?_
  refine (spec_getFlags 16).bind (l := 0) fun used _ => (spec_getMap used).bind (l := 0) fun map _ => ?_
  refine Spec.ite (fun _ => Spec.fail _ _) fun hu => ?_
  refine ((spec_getBits 3).bind (l := 0) fun g _ => Spec.ite (fun _ => Spec.fail _ _) fun hg => ?_).mono (by omega) fun _ h => h
  refine ((spec_getBits 15).bind (l := 0) fun n hn => Spec.ite (fun _ => Spec.fail _ _) fun hn' => Spec.pure ⟨?_, ?_, ?_⟩).mono
    (by omega) fun _ h => h
  · exact Nat.one_le_iff_ne_zero.mpr hu
  · dsimp only; omega
  · dsimp only; exact ⟨by omega, hn⟩

theorem spec_getSel : ∀ k j : Nat, Spec (getSel k j) 0 (· < j + k)
  | 0, _ => Spec.fail _ _
  | k + 1, j => ((spec_getBits 1).bind (l := 0) fun uc _ => Spec.ite (fun _ => Spec.pure (P := (· < j + (k + 1))) (by omega)) fun _ =>
      (spec_getSel k (j + 1)).mono le_rfl fun a h => by omega).mono (by omega) fun _ h => h

theorem spec_getSels (g n : Nat) : ∀ k i : Nat, i + k ≤ 18002 → Spec (getSels g n k i) 0 fun l => l.length = k ∧ ∀ j ∈ l, j < g
  | 0, _, _ => Spec.pure ⟨rfl, by simp⟩
  | k + 1, i, h => by
    refine (spec_getSel g 0).bind (l := 0) fun j hj => ?_
    rw [if_neg (by omega)]
    refine (spec_getSels g n k (i + 1) (by omega)).bind (l := 0) fun l hl => Spec.pure ⟨by simp [hl.1], ?_⟩
    intro x hx
    rcases List.mem_cons.mp hx with rfl | hx
    · omega
    · exact hl.2 x hx

theorem spec_getLen : ∀ n curr : Nat, Spec (getLen n curr) 0 fun l => 1 ≤ l ∧ l ≤ 20
  | 0, _ => Spec.more _ _
  | n + 1, curr => by
    rw [getLen]
    refine Spec.ite (fun _ => Spec.fail _ _) fun h => ?_
    refine ((spec_getBits 1).bind (l := 0) fun uc _ => Spec.ite (fun _ => Spec.pure ⟨by omega, by omega⟩) fun _ => ?_).mono (by omega) fun _ h => h
    exact ((spec_getBits 1).bind (l := 0) fun uc _ => spec_getLen n _).mono (by omega) fun _ h => h

theorem Spec.fuel {α : Type} {f : Nat → Dec α} {k : Nat} {P : α → Prop} (h : ∀ n, Spec (f n) k P) : Spec (fun bs => f (bs.length + 1) bs) k P :=
  fun bs => h (bs.length + 1) bs

theorem spec_getLens : ∀ k curr : Nat, Spec (getLens k curr) 0 fun ls => ls.length = k ∧ ∀ l ∈ ls, 1 ≤ l ∧ l ≤ 20
  | 0, _ => Spec.pure ⟨rfl, by simp⟩
  | k + 1, curr => by
    rw [getLens]
    refine (Spec.fuel (f := fun n => getLen n curr) fun n => spec_getLen n curr).bind (l := 0) fun l hl =>
      (spec_getLens k l).bind (l := 0) fun ls hls => Spec.pure ⟨by simp [hls.1], ?_⟩
    intro x hx
    rcases List.mem_cons.mp hx with rfl | hx
    · exact hl
    · exact hls.2 x hx

theorem spec_getTables (A : Nat) : ∀ k : Nat, Spec (getTables A k) 0 fun ts =>
    ts.length = k ∧ ∀ t ∈ ts, t.length = A ∧ ∀ l ∈ t, 1 ≤ l ∧ l ≤ 20
  | 0 => Spec.pure ⟨rfl, by simp⟩
  | k + 1 => by
    rw [getTables]
    refine ((spec_getBits 5).bind (l := 0) fun curr _ => (spec_getLens A curr).bind (l := 0) fun l hl =>
      (spec_getTables A k).bind (l := 0) fun ls hls => Spec.pure ⟨by simp [hls.1], ?_⟩).mono (by omega) fun _ h => h
    intro x hx
    rcases List.mem_cons.mp hx with rfl | hx
    · exact hl
    · exact hls.2 x hx

theorem symLoop_consume (t : Table) : ∀ k zn zvec bs, zn + k = 21 → ∀ i rest, symLoop t zn zvec bs = .ok i rest → rest <:+ bs := by
  intro k
  induction k with
  | zero =>
    intro zn zvec bs hk i rest h
    rw [symLoop, dif_pos (by omega)] at h
    cases h
  | succ k ih =>
    intro zn zvec bs hk i rest h
    rw [symLoop, dif_neg (by omega)] at h
    by_cases h1 : (zvec : Int) ≤ t.limit zn
    · rw [if_pos h1] at h
      by_cases h2 : (zvec : Int) - t.base zn < 0 ∨ 258 ≤ (zvec : Int) - t.base zn
      · rw [if_pos h2] at h; cases h
      · rw [if_neg h2] at h
        cases ho : t.perm[((zvec : Int) - t.base zn).toNat]? with
        | none => rw [ho] at h; cases h
        | some a =>
          rw [ho] at h
          simp only [Dec.ofOption, Dec.pure, Res.ok.injEq] at h
          rw [h.2]
    · rw [if_neg h1] at h
      change Dec.bind _ _ bs = _ at h
      unfold Dec.bind at h
      cases hb : getBits 1 bs with
      | ok a r =>
        rw [hb] at h
        exact (ih (zn + 1) _ r (by omega) i rest h).trans ((spec_getBits 1 bs).2 a r hb).2.2
      | more => rw [hb] at h; cases h
      | err => rw [hb] at h; cases h
      | ub => rw [hb] at h; cases h
      | random => rw [hb] at h; cases h

theorem spec_decodeSym {lens : List Nat} (hsz : lens.length ≤ 258) (hl : ∀ l ∈ lens, 1 ≤ l ∧ l ≤ 20) (hne : lens ≠ []) :
    Spec (decodeSym (tableOf lens)) 1 (· < lens.length) := by
  have hmem := hl _ (minLen_mem hne fun a ha => by have := (hl a ha).2; omega)
  intro bs
  obtain ⟨h1, h2, -⟩ := C94_in_range hsz hl hne bs
  refine ⟨h2, fun i rest h => ⟨h1 i rest h, ?_⟩⟩
  unfold decodeSym at h
  change Dec.bind _ _ bs = _ at h
  unfold Dec.bind at h
  cases hb : getBits (tableOf lens).minLen bs with
  | ok a r =>
    rw [hb] at h
    have hs := symLoop_consume _ (21 - minLen lens) _ _ r (by
      change minLen lens + _ = 21
      omega) i rest h
    obtain ⟨-, hg1, hg2⟩ := (spec_getBits _ bs).2 a r hb
    have hm : (tableOf lens).minLen = minLen lens := rfl
    have := hs.length_le
    exact ⟨by omega, hs.trans hg2⟩
  | more => rw [hb] at h; cases h
  | err => rw [hb] at h; cases h
  | ub => rw [hb] at h; cases h
  | random => rw [hb] at h; cases h

/-! ## The values -/

/-- What holds for the list of move to front and the bytes so far: the first `k` elements of the list are the numbers below
`k`; the bytes are bytes and there are not more than fit. -/
structure MtfOk (k max : Nat) (s : MtfD) : Prop where
  len : s.yy.length = 256
  front : ∀ i, i < k → s.yy.getD i 0 < k
  bytes : ∀ b ∈ s.tt, b < 256
  room : s.tt.length ≤ max

theorem mtfOk_start {k max : Nat} (hk : k ≤ 256) : MtfOk k max .start := by
  refine ⟨by simp [MtfD.start], fun i hi => ?_, by simp [MtfD.start], by simp [MtfD.start]⟩
  unfold MtfD.start
  rw [List.getD_eq_getElem _ _ (by simp; omega), List.getElem_range]
  exact hi

theorem seq_byte {seq : List Nat} (h : ∀ b ∈ seq, b < 256) (i : Nat) : seq.getD i 0 < 256 := by
  by_cases hi : i < seq.length
  · rw [List.getD_eq_getElem _ _ hi]; exact h _ (List.getElem_mem _)
  · rw [List.getD_eq_default _ _ (by omega)]; norm_num

theorem mtfOk_endRun {seq : List Nat} (hseq : ∀ b ∈ seq, b < 256) {k max : Nat} {s s' : MtfD} (h : MtfOk k max s)
    (e : s.endRun seq max = some s') : MtfOk k max s' ∧ s'.yy = s.yy := by
  unfold MtfD.endRun at e
  by_cases hr : s.run = true
  · rw [if_pos hr] at e
    by_cases hm : max < s.tt.length + s.es
    · rw [if_pos hm] at e; cases e
    · rw [if_neg hm, Option.some.injEq] at e
      subst e
      refine ⟨⟨h.len, h.front, ?_, ?_⟩, rfl⟩
      · intro b hb
        rcases List.mem_append.mp hb with hb | hb
        · exact h.bytes b hb
        · rw [(List.mem_replicate.mp hb).2]; exact seq_byte hseq _
      · dsimp only
        rw [List.length_append, List.length_replicate]; omega
  · rw [if_neg hr, Option.some.injEq] at e
    subst e
    exact ⟨h, rfl⟩

theorem mtfOk_step {seq : List Nat} (hseq : ∀ b ∈ seq, b < 256) {k max : Nat} (hk : k ≤ 256) {s : MtfD} (h : MtfOk k max s) {sym : Nat}
    (hs : sym ≤ k + 1) :
    (∀ s', mtfDecStep seq (k + 1) max s sym = .go s' → MtfOk k max s') ∧
      ∀ tt, mtfDecStep seq (k + 1) max s sym = .done tt → (∀ b ∈ tt, b < 256) ∧ tt.length ≤ max := by
  unfold mtfDecStep
  by_cases h01 : sym = 0 ∨ sym = 1
  · rw [if_pos h01]
    simp only
    have hb : MtfOk k max (if s.run then s else { s with run := true, es := 0, n := 1 }) := by
      split
      · exact h
      · exact ⟨h.len, h.front, h.bytes, h.room⟩
    generalize (if s.run then s else { s with run := true, es := 0, n := 1 }) = t at hb
    by_cases hn : 2 * 1024 * 1024 ≤ t.n
    · rw [if_pos hn]
      exact ⟨(fun _ e => by cases e), (fun _ e => by cases e)⟩
    · rw [if_neg hn]
      refine ⟨fun s' e => ?_, fun _ e => by cases e⟩
      simp only [MtfRes.go.injEq] at e
      subst e
      exact ⟨hb.len, hb.front, hb.bytes, hb.room⟩
  · rw [if_neg h01]
    cases he : s.endRun seq max with
    | none => exact ⟨(fun _ e => by cases e), (fun _ e => by cases e)⟩
    | some t =>
      obtain ⟨ht, -⟩ := mtfOk_endRun hseq h he
      simp only
      by_cases hd : sym = k + 1
      · rw [if_pos hd]
        refine ⟨(fun _ e => by cases e), fun tt e => ?_⟩
        simp only [MtfRes.done.injEq] at e
        subst e
        exact ⟨ht.bytes, ht.room⟩
      · rw [if_neg hd]
        by_cases hf : max ≤ t.tt.length
        · rw [if_pos hf]
          exact ⟨(fun _ e => by cases e), (fun _ e => by cases e)⟩
        · rw [if_neg hf]
          refine ⟨fun s' e => ?_, fun _ e => by cases e⟩
          simp only [MtfRes.go.injEq] at e
          subst e
          refine ⟨?_, ?_, ?_, ?_⟩
          · dsimp only
            have := ht.len
            rw [List.length_cons, List.length_eraseIdx_of_lt (by omega)]
            omega
          · intro i hi
            dsimp only
            cases i with
            | zero => rw [List.getD_cons_zero]; exact ht.front _ (by omega)
            | succ i =>
              rw [List.getD_cons_succ]
              have := ht.len
              rw [List.getD_eq_getElem?_getD, List.getElem?_eraseIdx]
              split
              · rw [← List.getD_eq_getElem?_getD]; exact ht.front i (by omega)
              · rw [← List.getD_eq_getElem?_getD]; exact ht.front (i + 1) hi
          · intro b hb
            rcases List.mem_append.mp hb with hb | hb
            · exact ht.bytes b hb
            · rw [List.mem_singleton.mp hb]; exact seq_byte hseq _
          · dsimp only
            rw [List.length_append, List.length_singleton]; omega

theorem seqToUnseq_bytes (inUse : Nat → Bool) : ∀ b ∈ seqToUnseq inUse, b < 256 := fun _ hb =>
  List.mem_range.mp (List.mem_of_mem_filter hb)

theorem nInUse_le (inUse : Nat → Bool) : nInUse inUse ≤ 256 := by
  unfold nInUse seqToUnseq
  exact (List.length_filter_le _ _).trans (by simp)

theorem spec_getVals {inUse : Nat → Bool} {max : Nat} {tables : List (List Nat)}
    (ht : ∀ t ∈ tables, t.length = nInUse inUse + 2 ∧ ∀ l ∈ t, 1 ≤ l ∧ l ≤ 20) :
    ∀ (n : Nat) (s : ValD), (∀ j ∈ s.sels, j < tables.length) → (s.pos ≠ 0 → ∃ t ∈ tables, s.table = tableOf t) →
      MtfOk (nInUse inUse) max s.mtf →
      Spec (getVals (tables.map tableOf) (seqToUnseq inUse) (nInUse inUse + 1) max n s) 0 fun tt =>
        (∀ b ∈ tt, b < 256) ∧ tt.length ≤ max
  | 0, _, _, _, _ => Spec.more _ _
  | n + 1, s, hs, hp, hm => by
    have h256 := nInUse_le inUse
    have hnext : ∀ s', s.next (tables.map tableOf) = some s' →
        (∀ j ∈ s'.sels, j < tables.length) ∧ (∃ t ∈ tables, s'.table = tableOf t) ∧ s'.mtf = s.mtf := by
      intro s' e
      unfold ValD.next at e
      by_cases h0 : s.pos = 0
      · rw [if_pos h0] at e
        cases hsel : s.sels with
        | nil => rw [hsel] at e; cases e
        | cons j sels =>
          rw [hsel] at e hs
          simp only [Option.some.injEq] at e
          subst e
          have hj := hs j List.mem_cons_self
          refine ⟨fun x hx => hs x (List.mem_cons_of_mem _ hx), ⟨tables[j], List.getElem_mem _, ?_⟩, rfl⟩
          dsimp only
          rw [List.getD_eq_getElem _ _ (by simpa using hj), List.getElem_map]
      · rw [if_neg h0, Option.some.injEq] at e
        subst e
        exact ⟨hs, hp h0, rfl⟩
    rw [getVals]
    cases he : s.next (tables.map tableOf) with
    | none => exact Spec.fail _ _
    | some s' =>
      obtain ⟨h1, ⟨t, htm, htab⟩, h3⟩ := hnext s' he
      obtain ⟨htl, hlens⟩ := ht t htm
      dsimp only
      rw [htab]
      refine ((spec_decodeSym (by omega) hlens (by intro e; rw [e] at htl; simp at htl)).bind (l := 0) fun sym hsym => ?_).mono (by omega)
        fun _ h => h
      rw [h3]
      obtain ⟨hgo, hdone⟩ := mtfOk_step (seqToUnseq_bytes inUse) h256 hm (sym := sym) (by omega)
      cases hr : mtfDecStep (seqToUnseq inUse) (nInUse inUse + 1) max s.mtf sym with
      | go m =>
        exact spec_getVals ht n { s' with mtf := m, table := tableOf t } h1 (fun _ => ⟨t, htm, rfl⟩) (hgo m hr)
      | done tt => exact Spec.pure (hdone tt hr)
      | err => exact Spec.fail _ _

theorem selUnmtf_lt : ∀ (l pos : List Nat) (g : Nat), (∀ x ∈ pos, x < g) → 1 ≤ g → ∀ x ∈ selUnmtf pos l, x < g
  | [], _, _, _, _, x, hx => by cases hx
  | v :: l, pos, g, hp, hg, x, hx => by
    have h1 : pos.getD v 0 < g := by
      by_cases hi : v < pos.length
      · rw [List.getD_eq_getElem _ _ hi]; exact hp _ (List.getElem_mem _)
      · rw [List.getD_eq_default _ _ (by omega)]; omega
    rw [selUnmtf, List.mem_cons] at hx
    rcases hx with rfl | hx
    · exact h1
    · refine selUnmtf_lt l (pos.getD v 0 :: pos.eraseIdx v) g (fun y hy => ?_) hg x hx
      rcases List.mem_cons.mp hy with rfl | hy
      · exact h1
      · exact hp y (List.mem_of_mem_eraseIdx hy)

/-- What is known of a block that was read. -/
structure DBlockOk (size100k : Nat) (b : DBlock) : Prop where
  bytes : ∀ x ∈ b.tt, x < 256
  room : b.tt.length ≤ 100000 * size100k
  ptr : b.origPtr < b.tt.length

theorem spec_getBody (size100k : Nat) {h : Head} (hok : HeadOk h) (hs : h.nSelectors ≤ 18002) :
    Spec (getBody size100k h) 0 (DBlockOk size100k) := by
  unfold getBody
  refine (spec_getSels h.nGroups h.nSelectors h.nSelectors 0 (by omega)).bind (l := 0) fun sels hsels =>
    (spec_getTables (nInUse h.inUse + 2) h.nGroups).bind (l := 0) fun tables htab => ?_
  have hsel : ∀ j ∈ selUnmtf (List.range h.nGroups) sels, j < tables.length := by
    rw [htab.1]
    exact selUnmtf_lt _ _ _ (fun x hx => List.mem_range.mp hx) (by have := hok.groups; omega)
  refine (Spec.fuel (f := fun n => getVals (tables.map tableOf) (seqToUnseq h.inUse) (nInUse h.inUse + 1) (100000 * size100k) n
    ⟨selUnmtf (List.range h.nGroups) sels, 0, ⟨fun _ => 0, fun _ => 0, [], 0⟩, .start⟩) fun n =>
      spec_getVals htab.2 n _ hsel (fun h => absurd rfl h) (mtfOk_start (nInUse_le _))).bind (l := 0) fun tt htt => ?_
  refine Spec.ite (fun _ => Spec.fail _ _) fun hlen => Spec.ite (fun _ => Spec.randomised _ _) fun _ => Spec.pure ⟨htt.1, htt.2, ?_⟩
  dsimp only
  omega

end Simox.Bz
