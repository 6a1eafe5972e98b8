import Verif.Wsf.Spec

/-!
# Reading a compressed stream
-/

namespace Simox.Wsf

open Workspace Spec

section
variable {c : Codec} {x : List UInt8} {n : Nat}

/-- Number of bytes determined by `k` bytes of the stream. -/
def D (c : Codec) (x : List UInt8) (k : Nat) : Nat := (c.decoded ((c.enc x).take k)).length

theorem decoded_eq (h : Stream c x n) {k : Nat} (hk : k ≤ (c.enc x).length) :
    c.decoded ((c.enc x).take k) = x.take (D c x k) := by
  have := h.mono k _ hk (Nat.le_refl _)
  rw [List.take_length, h.full] at this
  exact List.prefix_iff_eq_take.mp this

theorem D_le (h : Stream c x n) {k : Nat} (hk : k ≤ (c.enc x).length) : D c x k ≤ x.length := by
  have := h.mono k _ hk (Nat.le_refl _)
  rw [List.take_length, h.full] at this
  exact this.length_le

theorem D_all (h : Stream c x n) {k : Nat} (h1 : n ≤ k) (hk : k ≤ (c.enc x).length) :
    D c x k = x.length := by
  have := (h.mono n k h1 hk).length_le
  rw [h.all] at this
  have h2 := D_le h hk
  unfold D at h2 ⊢
  omega

theorem D_lt (h : Stream c x n) {k : Nat} (h1 : k < n) : D c x k < x.length := by
  have hk : k ≤ (c.enc x).length := by have := h.lt; omega
  rcases Nat.lt_or_ge (D c x k) x.length with h2 | h2
  · exact h2
  · exact absurd (by rw [decoded_eq h hk, List.take_of_length_le h2]) (h.needs k h1)

/-- What a call of `BZ2_bzDecompress` does. -/
structure Step (c : Codec) (x : List UInt8) (n k d space : Nat) (inp : List UInt8)
    (r : Ret × List UInt8 × Bz) (k' : Nat) : Prop where
  le : k ≤ k'
  le' : k' ≤ (c.enc x).length
  consumed : r.2.2.consumed = (c.enc x).take k'
  input : ∃ u, inp = u ++ r.2.2.availIn ∧ u.length = k' - k
  out : r.2.1 = (x.drop d).take r.2.1.length
  room : r.2.1.length ≤ space
  delivered : r.2.2.delivered = d + r.2.1.length
  bound : r.2.2.delivered ≤ D c x k'
  lazy : r.2.2.delivered < x.length → k' ≤ n
  noError : r.1 ≠ .error
  atEnd : r.1 = .streamEnd → k' = (c.enc x).length ∧ r.2.2.delivered = x.length
  going : r.1 = .ok → r.2.2.idle = false ∧
    ((r.2.2.delivered < D c x k' ∧ r.2.1.length = space) ∨
      (r.2.2.delivered = D c x k' ∧ r.2.2.availIn = [] ∧ k' < (c.enc x).length))

theorem deliver_eq (h : Stream c x n) {k d space : Nat} (hk : k ≤ (c.enc x).length) (hd : d ≤ D c x k) :
    (deliver c ((c.enc x).take k) d space) = (x.drop d).take (deliver c ((c.enc x).take k) d space).length ∧
    (deliver c ((c.enc x).take k) d space).length = min space (D c x k - d) := by
  have h1 := decoded_eq h hk
  have h2 := D_le h hk
  have h3 : (deliver c ((c.enc x).take k) d space).length = min space (D c x k - d) := by
    unfold deliver
    rw [h1, List.length_take, List.length_drop, List.length_take]
    omega
  refine ⟨?_, h3⟩
  rw [h3]
  unfold deliver
  rw [h1, List.drop_take, List.take_take]

theorem stops_cases (h : Stream c x n) {k d : Nat} (hk : k ≤ (c.enc x).length) (hd : d ≤ D c x k) :
    (stops c ((c.enc x).take k) d = some .ok ∧ d < D c x k) ∨
    (stops c ((c.enc x).take k) d = some .streamEnd ∧ d = D c x k ∧ k = (c.enc x).length) ∨
    (stops c ((c.enc x).take k) d = none ∧ d = D c x k ∧ k < (c.enc x).length) := by
  unfold stops
  by_cases h1 : d < (c.decoded ((c.enc x).take k)).length
  · rw [if_pos h1]; exact Or.inl ⟨rfl, h1⟩
  · rw [if_neg h1, h.good k hk]
    have h2 : d = D c x k := by unfold D at hd ⊢; omega
    by_cases h3 : k = (c.enc x).length
    · have := (h.ended k hk).mpr h3
      rw [this]
      exact Or.inr (Or.inl ⟨rfl, h2, h3⟩)
    · have : ¬ c.ended ((c.enc x).take k) = true := fun g => h3 ((h.ended k hk).mp g)
      simp only [this]
      exact Or.inr (Or.inr ⟨rfl, h2, by omega⟩)

theorem append_take {x o q : List UInt8} {d : Nat} (h1 : o = (x.drop d).take o.length)
    (h2 : q = (x.drop (d + o.length)).take q.length) :
    o ++ q = (x.drop d).take (o.length + q.length) := by
  rw [List.take_add, List.drop_drop]
  exact congr (congrArg (· ++ ·) h1) h2

theorem decompress_step (h : Stream c x n) (S : List UInt8) (hS : ∃ t, S = c.enc x ++ t) :
    ∀ (inp : List UInt8) (k d space : Nat), k ≤ (c.enc x).length → d ≤ D c x k →
      (d < x.length → k ≤ n) → inp <+: S.drop k →
      ∃ k', Step c x n k d space inp (decompress c ((c.enc x).take k) d space inp) k'
  | inp, k, d, space => by
    intro hk hd hl hi
    obtain ⟨o1, o2⟩ := deliver_eq (space := space) h hk hd
    have hd' : d + (deliver c ((c.enc x).take k) d space).length ≤ D c x k := by rw [o2]; omega
    have stopped : ∀ (r : Ret) (rr : Ret × List UInt8 × Bz), r ≠ .error →
        (stops c ((c.enc x).take k) (d + (deliver c ((c.enc x).take k) d space).length) = some r) →
        rr = (r, deliver c ((c.enc x).take k) d space,
          ⟨(c.enc x).take k, d + (deliver c ((c.enc x).take k) d space).length, inp, r ≠ .ok⟩) →
        ∃ k', Step c x n k d space inp rr k' := by
      intro r rr hne hr hrr
      subst hrr
      have hc := stops_cases h hk hd'
      refine ⟨k, Nat.le_refl _, hk, rfl, ⟨[], rfl, by simp⟩, o1, by rw [o2]; omega, rfl, hd', ?_, hne, ?_, ?_⟩
      · intro g; exact hl (by simp only at g; omega)
      · intro g
        subst g
        rw [hr] at hc
        rcases hc with ⟨g, _⟩ | ⟨_, g, g'⟩ | ⟨g, _⟩
        · simp at g
        · refine ⟨g', ?_⟩
          have h1 := h.lt
          have := D_all h (k := k) (by omega) hk
          simp only
          omega
        · simp at g
      · intro g
        subst g
        rw [hr] at hc
        rcases hc with ⟨_, g⟩ | ⟨g, _⟩ | ⟨g, _⟩
        · refine ⟨by simp, Or.inl ⟨g, ?_⟩⟩
          simp only
          rw [o2] at g ⊢
          omega
        · simp at g
        · simp at g
    have hc := stops_cases h hk hd'
    match inp, hi, stopped with
    | [], hi, stopped =>
      simp only [decompress]
      rcases hc with ⟨g, _⟩ | ⟨g, _⟩ | ⟨g, g1, g2⟩
      · exact stopped .ok _ (by simp) g (by rw [g])
      · exact stopped .streamEnd _ (by simp) g (by rw [g])
      · rw [g]
        refine ⟨k, Nat.le_refl _, hk, rfl, ⟨[], rfl, by simp⟩, o1, by simp only; rw [o2]; omega, rfl, hd', ?_,
          by simp, by simp, ?_⟩
        · intro g'; exact hl (by simp only at g'; omega)
        · intro _; exact ⟨rfl, Or.inr ⟨g1, rfl, g2⟩⟩
    | b :: rest, hi, stopped =>
      rw [decompress]
      rcases hc with ⟨g, _⟩ | ⟨g, _⟩ | ⟨g, g1, g2⟩
      · exact stopped .ok _ (by simp) g (by rw [g])
      · exact stopped .streamEnd _ (by simp) g (by rw [g])
      · rw [g]
        simp only
        obtain ⟨t, rfl⟩ := hS
        have hb : (c.enc x).take k ++ [b] = (c.enc x).take (k + 1) := by
          rw [List.drop_append_of_le_length hk] at hi
          have hne : (c.enc x).drop k = (c.enc x)[k] :: (c.enc x).drop (k + 1) :=
            List.drop_eq_getElem_cons g2
          rw [hne] at hi
          obtain ⟨z, hz⟩ := hi
          simp only [List.cons_append, List.cons.injEq] at hz
          rw [hz.1, List.take_append_getElem g2]
        have hi' : rest <+: (c.enc x ++ t).drop (k + 1) := by
          rw [← List.drop_drop]
          obtain ⟨z, hz⟩ := hi
          rw [← hz]
          exact ⟨z, by simp⟩
        rw [hb]
        have hmono : D c x k ≤ D c x (k + 1) := (h.mono k (k + 1) (by omega) (by omega)).length_le
        obtain ⟨k', s⟩ := decompress_step h (c.enc x ++ t) ⟨t, rfl⟩ rest (k + 1)
          (d + (deliver c ((c.enc x).take k) d space).length)
          (space - (deliver c ((c.enc x).take k) d space).length) (by omega) (by omega)
          (by
            intro g'
            rcases Nat.lt_or_ge k n with g3 | g3
            · omega
            · have := D_all h g3 hk
              omega) hi'
        have e1 := s.out
        have e2 := s.room
        have e3 := s.delivered
        have e4 := s.le
        obtain ⟨u, hu1, hu2⟩ := s.input
        refine ⟨k', by omega, s.le', s.consumed, ⟨b :: u, by rw [List.cons_append, ← hu1], by
          simp only [List.length_cons, hu2]; omega⟩, ?_, ?_, ?_, s.bound, s.lazy, s.noError, s.atEnd, ?_⟩
        · simp only [List.length_append]
          exact append_take o1 e1
        · simp only [List.length_append]; rw [o2] at *; omega
        · simp only [List.length_append]; omega
        · intro g'
          obtain ⟨f1, f2⟩ := s.going g'
          refine ⟨f1, ?_⟩
          rcases f2 with ⟨f2, f3⟩ | f2
          · refine Or.inl ⟨f2, ?_⟩
            simp only [List.length_append]
            rw [o2] at *
            omega
          · exact Or.inr f2

/-- The state of reading the stream `S`: `k` bytes processed, `d` bytes delivered; the file was read in
chunks, so the number of bytes read is a multiple of the chunk size. -/
structure At (c : Codec) (x : List UInt8) (n : Nat) (S : List UInt8) (b : Bz) (file : List UInt8)
    (k d : Nat) : Prop where
  le : k ≤ (c.enc x).length
  consumed : b.consumed = (c.enc x).take k
  delivered : b.delivered = d
  bound : d ≤ D c x k
  lazy : d < x.length → k ≤ n
  rest : b.availIn ++ file = S.drop k
  aligned : file = [] ∨ chunk ∣ k + b.availIn.length
  ahead : ∀ Q, n < Q → chunk ∣ Q → k + b.availIn.length ≤ Q
  idle : b.idle = true → d = x.length

theorem refill_spec {t : List UInt8} (ht : t ≠ []) {b : Bz} {file : List UInt8} {k d : Nat}
    (a : At c x n (c.enc x ++ t) b file k d) (hd : d < x.length) :
    At c x n (c.enc x ++ t) (refill b file).1 (refill b file).2 k d ∧ (refill b file).1.availIn ≠ [] ∧
      (refill b file).2.length + (if b.availIn = [] then 1 else 0) ≤ file.length := by
  unfold refill
  by_cases hb : b.availIn = []
  · rw [if_pos hb, if_pos hb]
    have hr := a.rest
    rw [hb, List.nil_append] at hr
    have hne : file ≠ [] := by
      intro g
      rw [g] at hr
      have := congrArg List.length hr
      rw [List.length_drop, List.length_append, List.length_nil] at this
      have h2 : 0 < t.length := List.length_pos_iff.mpr ht
      have h3 := a.le
      omega
    have hp : 0 < file.length := List.length_pos_iff.mpr hne
    have hcd : chunk ∣ k := by
      rcases a.aligned with g | g
      · exact absurd g hne
      · simpa [hb] using g
    refine ⟨⟨a.le, a.consumed, a.delivered, a.bound, a.lazy, ?_, ?_, ?_, a.idle⟩, ?_, ?_⟩
    · simp only [List.take_append_drop]; exact hr
    · simp only [List.length_take, List.drop_eq_nil_iff]
      rcases Nat.lt_or_ge chunk file.length with g | g
      · right
        rw [Nat.min_eq_left (by omega)]
        exact Nat.dvd_add hcd (Nat.dvd_refl _)
      · exact Or.inl g
    · intro Q hQ hQ'
      simp only [List.length_take]
      have h1 := a.lazy hd
      obtain ⟨i, rfl⟩ := hcd
      obtain ⟨j, rfl⟩ := hQ'
      have : i < j := Nat.lt_of_mul_lt_mul_left (a := chunk) (by omega)
      have : chunk * (i + 1) ≤ chunk * j := Nat.mul_le_mul_left _ this
      rw [Nat.mul_add, Nat.mul_one] at this
      omega
    · simp only [ne_eq, List.take_eq_nil_iff, not_or]
      exact ⟨by decide, hne⟩
    · simp only [List.length_drop]
      have : chunk = 5000 := rfl
      omega
  · rw [if_neg hb, if_neg hb]
    exact ⟨a, hb, by simp⟩

theorem arith1 {len d : Nat} {acc r : List UInt8} (h : (acc ++ r).length < len) :
    d + r.length + (len - (acc ++ r).length) = d + (len - acc.length) := by
  rw [List.length_append] at h ⊢; omega

theorem arith2 {len : Nat} {acc r : List UInt8} (h : (acc ++ r).length < len) :
    len - acc.length = r.length + (len - (acc ++ r).length) := by
  rw [List.length_append] at h ⊢; omega

theorem arith4 {len : Nat} {acc r : List UInt8} (h : acc.length < len) (h2 : r.length = len - acc.length) :
    (acc ++ r).length = len := by
  rw [List.length_append]; omega

theorem arith3 {len : Nat} {acc r : List UInt8} (h : (acc ++ r).length ≥ len) (h2 : r.length ≤ len - acc.length) :
    r.length = len - acc.length := by
  rw [List.length_append] at h; omega

/-- What `bzip2->read` does. -/
theorem readLoop_spec (h : Stream c x n) {t : List UInt8} (ht : t ≠ []) (len : Nat) :
    ∀ (fuel : Nat) (acc : List UInt8) (b : Bz) (file : List UInt8) (k d : Nat),
      At c x n (c.enc x ++ t) b file k d → acc.length < len → d + (len - acc.length) ≤ x.length →
      file.length + 1 + (if b.availIn = [] then 0 else 1) ≤ fuel →
      (readLoop c len fuel acc b file).ok = true ∧
      (readLoop c len fuel acc b file).bytes = acc ++ (x.drop d).take (len - acc.length) ∧
      ∃ k', At c x n (c.enc x ++ t) (readLoop c len fuel acc b file).bz (readLoop c len fuel acc b file).file
          k' (d + (len - acc.length)) ∧
        (d + (len - acc.length) = x.length →
          k' = (c.enc x).length ∨ (readLoop c len fuel acc b file).bz.availIn = [])
  | 0, acc, b, file, k, d => by intro _ _ _ hf; omega
  | fuel + 1, acc, b, file, k, d => by
    intro a ha hl hf
    have hd : d < x.length := by omega
    obtain ⟨a1, hne, hlen⟩ := refill_spec ht a hd
    have hid : b.idle = false := by
      cases g : b.idle with
      | false => rfl
      | true => have := a.idle g; omega
    obtain ⟨k1, s⟩ := decompress_step h (c.enc x ++ t) ⟨t, rfl⟩ (refill b file).1.availIn k d
      (len - acc.length) a1.le a1.bound a1.lazy ⟨(refill b file).2, a1.rest⟩
    rw [readLoop]
    simp only [hid, Bool.false_eq_true, if_false]
    rw [a1.consumed, a1.delivered]
    generalize decompress c ((c.enc x).take k) d (len - acc.length) (refill b file).1.availIn = r at s ⊢
    obtain ⟨u, hu1, hu2⟩ := s.input
    have e1 := s.out
    have e2 := s.room
    have e3 := s.delivered
    have e4 := s.le
    have e5 := s.le'
    have e6 := s.bound
    have hrest : r.2.2.availIn ++ (refill b file).2 = (c.enc x ++ t).drop k1 := by
      have := a1.rest
      rw [hu1, List.append_assoc] at this
      have h2 : k1 = k + u.length := by omega
      rw [h2, ← List.drop_drop, ← this, List.drop_left]
    have hlen2 : k1 + r.2.2.availIn.length = k + (refill b file).1.availIn.length := by
      rw [hu1, List.length_append]; omega
    have next : At c x n (c.enc x ++ t) r.2.2 (refill b file).2 k1 (d + r.2.1.length) :=
      { le := e5, consumed := s.consumed, delivered := e3, bound := by omega
        lazy := by intro g; exact s.lazy (by omega)
        rest := hrest
        aligned := by rw [hlen2]; exact a1.aligned
        ahead := by rw [hlen2]; exact a1.ahead
        idle := by
          intro g
          cases hr : r.1 with
          | ok => rw [(s.going hr).1] at g; simp at g
          | error => exact absurd hr s.noError
          | streamEnd => have := (s.atEnd hr).2; omega }
    have hDle := D_le h e5
    have fin : r.2.1.length = len - acc.length →
        (d + (len - acc.length) = x.length → k1 = (c.enc x).length ∨ r.2.2.availIn = []) →
        acc ++ r.2.1 = acc ++ (x.drop d).take (len - acc.length) ∧
        ∃ k', At c x n (c.enc x ++ t) r.2.2 (refill b file).2 k' (d + (len - acc.length)) ∧
          (d + (len - acc.length) = x.length → k' = (c.enc x).length ∨ r.2.2.availIn = []) := by
      intro g g'
      rw [g] at next e1
      exact ⟨by rw [e1], k1, next, g'⟩
    cases hr : r.1 with
    | error => exact absurd hr s.noError
    | streamEnd =>
      simp only
      obtain ⟨g1, g2⟩ := s.atEnd hr
      exact ⟨trivial, fin (by omega) fun _ => Or.inl g1⟩
    | ok =>
      simp only
      obtain ⟨g1, g2⟩ := s.going hr
      rcases Nat.lt_or_ge (acc ++ r.2.1).length len with g | g
      · have g3 : r.2.2.availIn = [] ∧ k1 < (c.enc x).length ∧ r.2.2.delivered = D c x k1 := by
          rcases g2 with ⟨_, g2⟩ | ⟨g2, g3, g4⟩
          · rw [List.length_append] at g; omega
          · exact ⟨g3, g4, g2⟩
        have hfne : (refill b file).2 ≠ [] := by
          intro g4
          rw [g3.1, g4] at hrest
          have := congrArg List.length hrest
          rw [List.length_drop, List.length_append] at this
          simp at this
          omega
        rw [if_neg (by simp [hfne]), if_neg (by omega)]
        have hadd : d + r.2.1.length + (len - (acc ++ r.2.1).length) = d + (len - acc.length) := by
          exact arith1 g
        obtain ⟨f1, f2, k', f3, f4⟩ := readLoop_spec h ht len fuel (acc ++ r.2.1) r.2.2 (refill b file).2 k1
          (d + r.2.1.length) next g (by omega) (by rw [if_pos g3.1]; split at hf <;> split at hlen <;> omega)
        rw [hadd] at f3 f4
        refine ⟨f1, ?_, k', f3, f4⟩
        rw [f2, List.append_assoc]
        congr 1
        have hl3 : len - acc.length = r.2.1.length + (len - (acc ++ r.2.1).length) := by
          exact arith2 g
        rw [hl3, List.take_add, List.drop_drop, ← e1]
      · have g3 : r.2.1.length = len - acc.length := arith3 g e2
        have g4 : (acc ++ r.2.1).length = len := arith4 ha g3
        rw [if_neg (by rw [g4]; simp), if_pos g4]
        refine ⟨rfl, fin g3 ?_⟩
        intro g5
        rcases g2 with ⟨g2, _⟩ | ⟨_, g2, _⟩
        · omega
        · exact Or.inr g2

theorem bzRead_spec (h : Stream c x n) {t : List UInt8} (ht : t ≠ []) {len : Nat} (hlen : 0 < len) {b : Bz}
    {file : List UInt8} {k d : Nat} (a : At c x n (c.enc x ++ t) b file k d) (hl : d + len ≤ x.length) :
    (bzRead c len b file).ok = true ∧ (bzRead c len b file).bytes = (x.drop d).take len ∧
      ∃ k', At c x n (c.enc x ++ t) (bzRead c len b file).bz (bzRead c len b file).file k' (d + len) ∧
        (d + len = x.length → k' = (c.enc x).length ∨ (bzRead c len b file).bz.availIn = []) := by
  unfold bzRead
  rw [if_neg (by omega)]
  have := readLoop_spec h ht len (file.length + 2) [] b file k d a (by simpa using hlen) (by simpa using hl)
    (by split <;> omega)
  simpa using this

theorem open_at {t : List UInt8} :
    At c x n (c.enc x ++ t) Bz.open (c.enc x ++ t) 0 0 where
  le := by omega
  consumed := by simp [Bz.open]
  delivered := rfl
  bound := by omega
  lazy := by intro; omega
  rest := by simp [Bz.open]
  aligned := Or.inr (by simp [Bz.open])
  ahead := by intro Q hQ _; simp [Bz.open]
  idle := by simp [Bz.open]

/-- Where the file is left after everything was delivered and the stream was closed. -/
theorem close_spec (h : Stream c x n) {t : List UInt8} {b : Bz} {file : List UInt8} {k : Nat}
    (a : At c x n (c.enc x ++ t) b file k x.length)
    (e : k = (c.enc x).length ∨ b.availIn = []) :
    (¬ HasMultiple n (c.enc x).length → bzClose b file = t) ∧
    (HasMultiple (n + 1) (c.enc x).length → ∃ u, bzClose b file = u ++ t ∧ 0 < u.length ∧ u.length ≤ 10) := by
  have hk : n ≤ k := by
    rcases Nat.lt_or_ge k n with g | g
    · have := D_lt h g
      have := a.bound
      omega
    · exact g
  have hr := a.rest
  have htr := h.trailer
  rw [List.drop_append_of_le_length a.le] at hr
  constructor
  · intro hm
    unfold bzClose
    rw [hr]
    rcases e with e | e
    · rw [e]; simp
    · rcases Nat.lt_or_ge k (c.enc x).length with g | g
      · exfalso
        refine hm ?_
        have hne : file ≠ [] := by
          intro g'
          rw [e, g'] at hr
          have := congrArg List.length hr
          simp only [List.append_nil, List.length_nil, List.length_append, List.length_drop] at this
          omega
        rcases a.aligned with g' | g'
        · exact absurd g' hne
        · rw [e] at g'
          obtain ⟨j, hj⟩ := g'
          simp only [List.length_nil, Nat.add_zero] at hj
          exact ⟨j, by omega, by omega⟩
      · have : k = (c.enc x).length := by have := a.le; omega
        rw [this]; simp
  · rintro ⟨j, h1, h2⟩
    have hle := a.ahead (chunk * j) (by omega) (Nat.dvd_mul_right _ _)
    refine ⟨(c.enc x).drop k, hr, ?_, ?_⟩
    · rw [List.length_drop]; omega
    · rw [List.length_drop]; omega
end

end Simox.Wsf
