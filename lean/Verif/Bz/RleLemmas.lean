import Verif.Bz.RleModel
import Mathlib.Data.List.Chain
import Mathlib.Tactic.Ring
import Mathlib.Tactic.Linarith

/-!
# bzip2: runs: lemmas
-/

namespace Simox.Bz

/-- A run: a byte and how often it occurs. -/
abbrev Pair := Nat × Nat

def rawPair (p : Pair) : List Nat := List.replicate p.2 p.1

def encPair (p : Pair) : List Nat :=
  if p.2 ≤ 3 then List.replicate p.2 p.1 else [p.1, p.1, p.1, p.1, p.2 - 4]

def PairOk (p : Pair) : Prop := p.1 < 256 ∧ 1 ≤ p.2 ∧ p.2 ≤ 255

/-- What may follow a run in a block: a run of another byte, or any run after one with a count. -/
def Sep (p q : Pair) : Prop := 4 ≤ p.2 ∨ p.1 ≠ q.1

theorem encPair_length (p : Pair) (h : PairOk p) : 1 ≤ (encPair p).length ∧ (encPair p).length ≤ 5 := by
  obtain ⟨_, h1, _⟩ := h
  unfold encPair
  split
  · rename_i h'; rw [List.length_replicate]; omega
  · simp

theorem encPair_head (p : Pair) (h : PairOk p) : ∃ l, encPair p = p.1 :: l := by
  obtain ⟨c, n⟩ := p
  obtain ⟨_, h1, _⟩ := h
  unfold encPair
  simp only at h1 ⊢
  split
  · obtain ⟨m, rfl⟩ : ∃ m, n = m + 1 := ⟨n - 1, by omega⟩
    exact ⟨_, List.replicate_succ⟩
  · exact ⟨_, rfl⟩

/-! ## Coding -/

/-- The run that has not yet been added to the block. -/
def EncRun.pending (s : EncRun) : List Pair := if s.ch < 256 then [(s.ch, s.len)] else []

structure BlockInv (s : EncRun) (ps : List Pair) : Prop where
  block : s.block = ps.flatMap encPair
  crc : s.crc = (ps.flatMap rawPair).foldl crcUpdate crcInit
  used : ∀ b, s.inUse b = true ↔ b ∈ s.block
  ok : ∀ p ∈ ps, PairOk p
  chain : ps.IsChain Sep

/-- The runs of the block, and one that is pending; there is none only at the start. -/
structure RunInv (s : EncRun) (ps : List Pair) : Prop where
  inv : BlockInv s ps
  pend : (s.ch = 256 ∧ s.len = 0 ∧ ps = []) ∨ PairOk (s.ch, s.len)
  last : s.ch < 256 → ∀ p ∈ ps.getLast?, Sep p (s.ch, s.len)

theorem blockInv_empty (s : EncRun) : BlockInv s.newBlock [] :=
  ⟨rfl, rfl, by simp [EncRun.newBlock], by simp, by simp⟩

theorem runInv_start : RunInv .start [] :=
  ⟨⟨rfl, rfl, by simp [EncRun.start], by simp, by simp⟩, Or.inl ⟨rfl, rfl, rfl⟩, by simp⟩

theorem runInv_newBlock {s : EncRun} {ps : List Pair} (h : RunInv s ps) : RunInv s.newBlock [] := by
  refine ⟨blockInv_empty s, ?_, by simp⟩
  rcases h.pend with ⟨a, b, _⟩ | hp
  · exact Or.inl ⟨a, b, rfl⟩
  · exact Or.inr hp

theorem addPair_eq {s : EncRun} (h : PairOk (s.ch, s.len)) :
    s.addPair.block = s.block ++ encPair (s.ch, s.len) ∧
    s.addPair.crc = (rawPair (s.ch, s.len)).foldl crcUpdate s.crc ∧
    s.addPair.ch = s.ch ∧ s.addPair.len = s.len ∧
    ∀ b, s.addPair.inUse b = true ↔ (s.inUse b = true ∨ b ∈ encPair (s.ch, s.len)) := by
  obtain ⟨_, h1, h2⟩ := h
  simp only at h1 h2
  obtain ⟨ch, n, block, crc, inUse⟩ := s
  simp only at h1 h2 ⊢
  unfold EncRun.addPair
  match n, h1, h2 with
  | 1, _, _ =>
    refine ⟨by simp [encPair], by simp [rawPair], rfl, rfl, ?_⟩
    intro b
    by_cases hb : b = ch <;> simp [upd, encPair, hb]
  | 2, _, _ =>
    refine ⟨by simp [encPair, List.replicate], by simp [rawPair], rfl, rfl, ?_⟩
    intro b
    by_cases hb : b = ch <;> simp [upd, encPair, hb, List.replicate]
  | 3, _, _ =>
    refine ⟨by simp [encPair, List.replicate], by simp [rawPair], rfl, rfl, ?_⟩
    intro b
    by_cases hb : b = ch <;> simp [upd, encPair, hb, List.replicate]
  | n + 4, _, _ =>
    refine ⟨by simp [encPair], by simp [rawPair], rfl, rfl, ?_⟩
    intro b
    simp only [upd, encPair]
    by_cases hb : b = ch <;> by_cases hb' : b = n <;> simp [hb, hb']

/-- The run that is pending is added to the block. -/
theorem blockInv_add {s : EncRun} {ps : List Pair} (h : RunInv s ps) (hp : PairOk (s.ch, s.len)) {s' : EncRun}
    (hb : s'.block = s.addPair.block) (hc : s'.crc = s.addPair.crc) (hu : s'.inUse = s.addPair.inUse) :
    BlockInv s' (ps ++ [(s.ch, s.len)]) := by
  obtain ⟨e1, e2, e3, e4, e5⟩ := addPair_eq hp
  refine ⟨?_, ?_, ?_, ?_, ?_⟩
  · rw [hb, e1, h.inv.block]; simp
  · rw [hc, e2, h.inv.crc]; simp
  · intro b
    rw [hu, hb, e5, e1, h.inv.used, List.mem_append]
  · intro p hp'
    rw [List.mem_append, List.mem_singleton] at hp'
    rcases hp' with hp' | rfl
    · exact h.inv.ok p hp'
    · exact hp
  · rw [List.isChain_append]
    refine ⟨h.inv.chain, by simp, ?_⟩
    intro x hx y hy
    simp only [List.head?_cons, Option.mem_some_iff] at hy
    subst hy
    exact h.last hp.1 x hx

theorem rawPair_succ (c n : Nat) : rawPair (c, n + 1) = rawPair (c, n) ++ [c] := by
  simp [rawPair, List.replicate_succ']

theorem runInv_addChar {s : EncRun} {ps : List Pair} (h : RunInv s ps) {c : Nat} (hc : c < 256) :
    ∃ ps', RunInv (s.addChar c) ps' ∧
      (ps' ++ (s.addChar c).pending).flatMap rawPair = (ps ++ s.pending).flatMap rawPair ++ [c] ∧
      (s.addChar c).block.length ≤ s.block.length + 5 ∧ (s.addChar c).ch < 256 := by
  rcases h.pend with ⟨hch, hlen, hps⟩ | hp
  · -- nothing is pending
    have e : s.addChar c = { s with ch := c, len := 1 } := by
      unfold EncRun.addChar
      rw [if_neg (by simp [hlen]), if_pos (Or.inl (by omega)), if_neg (by omega)]
    rw [e]
    refine ⟨ps, ⟨⟨h.inv.block, h.inv.crc, h.inv.used, h.inv.ok, h.inv.chain⟩, Or.inr ⟨hc, le_rfl, by norm_num⟩, ?_⟩,
      ?_, by simp, hc⟩
    · subst hps; simp
    · simp only [EncRun.pending, hch, if_pos hc]
      simp [rawPair]
  · obtain ⟨hch, hl1, hl2⟩ := hp
    simp only at hch hl1 hl2
    have hp : PairOk (s.ch, s.len) := ⟨hch, hl1, hl2⟩
    have hpd : s.pending = [(s.ch, s.len)] := by simp only [EncRun.pending]; rw [if_pos hch]
    have hadd : ∀ s' : EncRun, s'.block = s.addPair.block → s'.crc = s.addPair.crc → s'.inUse = s.addPair.inUse →
        s'.ch = c → s'.len = 1 → (c ≠ s.ch ∨ s.len = 255) → RunInv s' (ps ++ [(s.ch, s.len)]) ∧
        ((ps ++ [(s.ch, s.len)]) ++ s'.pending).flatMap rawPair = (ps ++ s.pending).flatMap rawPair ++ [c] ∧
        s'.block.length ≤ s.block.length + 5 ∧ s'.ch < 256 := by
      intro s' hb hcr hu hc' hl' hd
      refine ⟨⟨blockInv_add h hp hb hcr hu, Or.inr ?_, ?_⟩, ?_, ?_, ?_⟩
      · rw [hc', hl']; exact ⟨hc, le_rfl, by norm_num⟩
      · intro _ p hp'
        rw [List.getLast?_append] at hp'
        simp at hp'
        subst hp'
        rcases hd with hd | hd
        · right; rw [hc']; exact fun hh => hd hh.symm
        · left; simp only; omega
      · simp only [EncRun.pending, hc', hl', if_pos hc, if_pos hch]
        simp [rawPair]
      · rw [hb, (addPair_eq hp).1, List.length_append]
        have := (encPair_length _ hp).2
        omega
      · rw [hc']; exact hc
    by_cases h1 : c ≠ s.ch ∧ s.len = 1
    · have e : s.addChar c = { s with crc := crcUpdate s.crc s.ch, inUse := upd s.inUse s.ch true, block := s.block ++ [s.ch], ch := c } := by
        unfold EncRun.addChar
        rw [if_pos h1]
      have ea : s.addPair = { s with crc := crcUpdate s.crc s.ch, inUse := upd s.inUse s.ch true, block := s.block ++ [s.ch] } := by
        obtain ⟨ch, n, block, crc, inUse⟩ := s
        obtain ⟨_, h1⟩ := h1
        simp only at h1
        subst h1
        simp [EncRun.addPair]
      rw [e]
      exact ⟨_, hadd _ (by rw [ea]) (by rw [ea]) (by rw [ea]) rfl h1.2 (Or.inl h1.1)⟩
    · by_cases h2 : c ≠ s.ch ∨ s.len = 255
      · have e : s.addChar c = { s.addPair with ch := c, len := 1 } := by
          unfold EncRun.addChar
          rw [if_neg h1, if_pos h2, if_pos hch]
        rw [e]
        exact ⟨_, hadd _ rfl rfl rfl rfl rfl h2⟩
      · have e : s.addChar c = { s with len := s.len + 1 } := by
          unfold EncRun.addChar
          rw [if_neg h1, if_neg h2]
        rw [e]
        push Not at h2
        obtain ⟨hcc, hl⟩ := h2
        refine ⟨ps, ⟨⟨h.inv.block, h.inv.crc, h.inv.used, h.inv.ok, h.inv.chain⟩, Or.inr ⟨hch, by simp, ?_⟩, ?_⟩,
          ?_, by simp, hch⟩
        · simp only; omega
        · intro _ p hp'
          exact h.last hch p hp'
        · simp only [EncRun.pending, if_pos hch, hcc]
          simp [rawPair, List.replicate_succ']

theorem blockInv_flush {s : EncRun} {ps : List Pair} (h : RunInv s ps) :
    ∃ ps', BlockInv s.flushRL ps' ∧ ps'.flatMap rawPair = (ps ++ s.pending).flatMap rawPair ∧
      s.flushRL.block.length ≤ s.block.length + 5 := by
  rcases h.pend with ⟨hch, hlen, hps⟩ | hp
  · refine ⟨ps, ?_, ?_, ?_⟩
    · unfold EncRun.flushRL
      rw [if_neg (by omega)]
      exact ⟨h.inv.block, h.inv.crc, h.inv.used, h.inv.ok, h.inv.chain⟩
    · simp [EncRun.pending, hch]
    · unfold EncRun.flushRL
      rw [if_neg (by omega)]
      simp [EncRun.initRL]
  · have hfl : s.flushRL = s.addPair.initRL := by
      unfold EncRun.flushRL
      rw [if_pos hp.1]
    rw [hfl]
    refine ⟨ps ++ [(s.ch, s.len)], blockInv_add h hp rfl rfl rfl, ?_, ?_⟩
    · simp only [EncRun.pending]; rw [if_pos hp.1]
    · simp only [EncRun.initRL]
      rw [(addPair_eq hp).1, List.length_append]
      have := (encPair_length _ hp).2
      omega

/-! ## Decoding -/

/-- Reading from `s` gives the bytes `l`, one after the other. -/
def Yields {σ : Type} (get : σ → Option (Nat × σ)) : σ → List Nat → Prop
  | _, [] => True
  | s, c :: l => ∃ s', get s = some (c, s') ∧ Yields get s' l

variable {σ : Type} {get : σ → Option (Nat × σ)}

theorem unrle_go {npp n : Nat} {s s' : DecRun σ} (h : runTurn get npp s = .go s') :
    unrle get npp (n + 1) s = unrle get npp n s' := by
  rw [unrle, h]

/-- One turn reads one run. -/
theorem runTurn_pair {npp : Nat} {p : Pair} (hp : PairOk p) {ps : List Pair} (hok : ∀ q ∈ ps, PairOk q)
    (hch : (p :: ps).IsChain Sep) {w : Nat} {s : DecRun σ} {l : List Nat}
    (hl : encPair p ++ ps.flatMap encPair = s.k0 :: l) (hy : Yields get s.src (l ++ [w]))
    (hu : s.used + (l.length + 1) = npp) :
    ∃ s', runTurn get npp s = .go s' ∧ s'.out = s.out ++ rawPair p ∧
      s'.used + (ps.flatMap encPair).length = npp ∧
      ∀ c l', ps.flatMap encPair = c :: l' → s'.k0 = c ∧ Yields get s'.src (l' ++ [w]) := by
  obtain ⟨c, n⟩ := p
  obtain ⟨hc, h1, h2⟩ := hp
  simp only at hc h1 h2
  -- what follows the run
  generalize hr : ps.flatMap encPair = r at *
  have hnext : n ≤ 3 → ∀ x r', r = x :: r' → x ≠ c := by
    intro hn x r' hx
    cases ps with
    | nil => simp at hr; rw [hr] at hx; cases hx
    | cons q ps =>
      obtain ⟨m, hm⟩ := encPair_head q (hok q List.mem_cons_self)
      rw [List.flatMap_cons, hm] at hr
      rw [← hr] at hx
      simp only [List.cons_append, List.cons.injEq] at hx
      rw [List.isChain_cons_cons] at hch
      rcases hch.1 with h | h
      · simp only at h; omega
      · rw [← hx.1]; exact fun hh => h hh.symm
  have hlen : l.length + 1 = (encPair (c, n)).length + r.length := by
    have := congrArg List.length hl
    simp only [List.length_append, List.length_cons] at this
    omega
  unfold runTurn
  rw [if_neg (by omega), if_neg (by omega)]
  rcases s with ⟨k0, used, src, out⟩
  simp only at hl hy hu ⊢
  have hcase : n = 1 ∨ n = 2 ∨ n = 3 ∨ 4 ≤ n := by omega
  rcases hcase with rfl | rfl | rfl | hn4
  · -- one
    simp only [encPair, show (1 : Nat) ≤ 3 by norm_num, if_true, List.replicate, List.cons_append, List.nil_append,
      List.cons.injEq] at hl
    obtain ⟨rfl, rfl⟩ := hl
    simp only [encPair, show (1 : Nat) ≤ 3 by norm_num, if_true, List.replicate, List.length_cons, List.length_nil] at hlen
    cases r with
    | nil =>
      obtain ⟨s1, hg, -⟩ := hy
      rw [hg]
      simp only
      by_cases hk : w ≠ c
      · rw [if_pos hk]
        exact ⟨_, rfl, by simp [rawPair], by simp at hu ⊢; omega, by simp⟩
      · rw [if_neg hk, if_pos (by simp at hu; omega)]
        exact ⟨_, rfl, by simp [rawPair], by simp at hu ⊢; omega, by simp⟩
    | cons x r' =>
      have hx := hnext (by norm_num) x r' rfl
      obtain ⟨s1, hg, hy1⟩ := hy
      rw [hg]
      simp only
      rw [if_pos hx]
      refine ⟨_, rfl, by simp [rawPair], by simp at hu ⊢; omega, ?_⟩
      intro d l' hd
      simp only [List.cons.injEq] at hd
      obtain ⟨rfl, rfl⟩ := hd
      exact ⟨rfl, hy1⟩
  · -- two
    simp only [encPair, show (2 : Nat) ≤ 3 by norm_num, if_true, List.replicate, List.cons_append, List.nil_append,
      List.cons.injEq] at hl
    obtain ⟨rfl, rfl⟩ := hl
    obtain ⟨s1, hg, hy1⟩ := hy
    rw [hg]
    simp only
    simp only [List.length_cons] at hu
    rw [if_neg (by simp), if_neg (by omega)]
    cases r with
    | nil =>
      obtain ⟨s2, hg2, -⟩ := hy1
      rw [hg2]
      simp only
      rw [if_pos (by simp at hu; omega)]
      exact ⟨_, rfl, by simp [rawPair], by simp at hu ⊢; omega, by simp⟩
    | cons x r' =>
      have hx := hnext (by norm_num) x r' rfl
      obtain ⟨s2, hg2, hy2⟩ := hy1
      rw [hg2]
      simp only
      rw [if_neg (by simp at hu; omega), if_pos hx]
      refine ⟨_, rfl, by simp [rawPair], by simp at hu ⊢; omega, ?_⟩
      intro d l' hd
      simp only [List.cons.injEq] at hd
      obtain ⟨rfl, rfl⟩ := hd
      exact ⟨rfl, hy2⟩
  · -- three
    simp only [encPair, show (3 : Nat) ≤ 3 by norm_num, if_true, List.replicate, List.cons_append, List.nil_append,
      List.cons.injEq] at hl
    obtain ⟨rfl, rfl⟩ := hl
    obtain ⟨s1, hg, hy1⟩ := hy
    obtain ⟨s2, hg2, hy2⟩ := hy1
    rw [hg]
    simp only [List.length_cons] at hu
    simp only
    rw [if_neg (by simp), if_neg (by omega), hg2]
    simp only
    rw [if_neg (by omega), if_neg (by simp)]
    cases r with
    | nil =>
      obtain ⟨s3, hg3, -⟩ := hy2
      rw [hg3]
      simp only
      rw [if_pos (by simp at hu; omega)]
      exact ⟨_, rfl, by simp [rawPair], by simp at hu ⊢; omega, by simp⟩
    | cons x r' =>
      have hx := hnext (by norm_num) x r' rfl
      obtain ⟨s3, hg3, hy3⟩ := hy2
      rw [hg3]
      simp only
      rw [if_neg (by simp at hu; omega), if_pos hx]
      refine ⟨_, rfl, by simp [rawPair], by simp at hu ⊢; omega, ?_⟩
      intro d l' hd
      simp only [List.cons.injEq] at hd
      obtain ⟨rfl, rfl⟩ := hd
      exact ⟨rfl, hy3⟩
  · -- four or more
    simp only [encPair, if_neg (show ¬ n ≤ 3 by omega), List.cons_append, List.nil_append, List.cons.injEq] at hl
    obtain ⟨rfl, rfl⟩ := hl
    obtain ⟨s1, hg1, s2, hg2, s3, hg3, s4, hg4, hy4⟩ := hy
    simp only [List.length_cons] at hu
    rw [hg1]
    simp only
    rw [if_neg (by simp), if_neg (by omega), hg2]
    simp only
    rw [if_neg (by omega), if_neg (by simp), hg3]
    simp only
    rw [if_neg (by omega), if_neg (by simp), hg4]
    simp only
    cases r with
    | nil =>
      obtain ⟨s5, hg5, -⟩ := hy4
      rw [hg5]
      exact ⟨_, rfl, by simp [rawPair, show n - 4 + 4 = n by omega], by simp at hu ⊢; omega, by simp⟩
    | cons x r' =>
      obtain ⟨s5, hg5, hy5⟩ := hy4
      rw [hg5]
      refine ⟨_, rfl, by simp [rawPair, show n - 4 + 4 = n by omega], by simp at hu ⊢; omega, ?_⟩
      intro d l' hd
      simp only [List.cons.injEq] at hd
      obtain ⟨rfl, rfl⟩ := hd
      exact ⟨rfl, hy5⟩

theorem unrle_pairs {npp : Nat} {w : Nat} : ∀ (ps : List Pair), (∀ q ∈ ps, PairOk q) → ps.IsChain Sep →
    ∀ (n : Nat) (s : DecRun σ), ps.length < n → s.used + (ps.flatMap encPair).length = npp →
    (∀ c l, ps.flatMap encPair = c :: l → s.k0 = c ∧ Yields get s.src (l ++ [w])) →
    unrle get npp n s = some (s.out ++ ps.flatMap rawPair)
  | [], _, _, n, s, hn, hu, _ => by
    obtain ⟨m, rfl⟩ : ∃ m, n = m + 1 := ⟨n - 1, by simp at hn; omega⟩
    simp only [List.flatMap_nil, List.length_nil] at hu
    rw [unrle]
    unfold runTurn
    rw [if_neg (by omega), if_pos (by omega)]
    simp
  | p :: ps, hok, hch, n, s, hn, hu, hy => by
    obtain ⟨m, rfl⟩ : ∃ m, n = m + 1 := ⟨n - 1, by simp at hn; omega⟩
    have hp := hok p List.mem_cons_self
    have hok' : ∀ q ∈ ps, PairOk q := fun q hq => hok q (List.mem_cons_of_mem _ hq)
    obtain ⟨t, ht⟩ := encPair_head p hp
    have hl : (p :: ps).flatMap encPair = p.1 :: (t ++ ps.flatMap encPair) := by
      rw [List.flatMap_cons, ht]; rfl
    obtain ⟨hk, hy'⟩ := hy _ _ hl
    rw [hl, List.length_cons] at hu
    obtain ⟨s', hs', ho, hu', hy''⟩ := runTurn_pair hp hok' hch (w := w) (s := s) (l := t ++ ps.flatMap encPair)
      (by rw [← List.flatMap_cons, hl, hk]) hy' hu
    rw [unrle_go hs', unrle_pairs ps hok' hch.tail m s' (by simp at hn; omega) hu' hy'', ho,
      List.flatMap_cons, List.append_assoc]

theorem pairs_length : ∀ ps : List Pair, (∀ q ∈ ps, PairOk q) → ps.length ≤ (ps.flatMap encPair).length
  | [], _ => by simp
  | p :: ps, h => by
    have h1 := (encPair_length p (h p List.mem_cons_self)).1
    have h2 := pairs_length ps (fun q hq => h q (List.mem_cons_of_mem _ hq))
    rw [List.flatMap_cons, List.length_append, List.length_cons]; omega

/-- A block is decoded to its runs. -/
theorem unrle_block {s : EncRun} {ps : List Pair} (h : BlockInv s ps) {w k0 : Nat} {src src1 : σ}
    (hg : get src = some (k0, src1)) (hy : Yields get src (s.block ++ [w])) :
    unrle get (s.block.length + 1) (s.block.length + 2) ⟨k0, 1, src1, []⟩ = some (ps.flatMap rawPair) := by
  have hlen := pairs_length ps h.ok
  rw [← h.block] at hlen
  have := unrle_pairs (get := get) (npp := s.block.length + 1) (w := w) ps h.ok h.chain (s.block.length + 2)
    ⟨k0, 1, src1, []⟩ (by omega) (by rw [← h.block]; simp; omega) (by
      intro c l hcl
      rw [← h.block] at hcl
      rw [hcl] at hy
      obtain ⟨s', hs', hy'⟩ := hy
      rw [hg] at hs'
      simp only [Option.some.injEq, Prod.mk.injEq] at hs'
      obtain ⟨rfl, rfl⟩ := hs'
      exact ⟨rfl, hy'⟩)
  simpa using this

/-- There are turns enough. -/
theorem unrle_fuel {npp : Nat} : ∀ (n m : Nat) (s : DecRun σ), npp + 1 < n + s.used → n ≤ m →
    unrle get npp m s = unrle get npp n s := by
  intro n
  induction n with
  | zero =>
    intro m s h _
    have hc : npp < s.used := by omega
    cases m with
    | zero => rfl
    | succ m =>
      rw [unrle, unrle]
      unfold runTurn
      rw [if_pos hc]
  | succ n ih =>
    intro m s h hm
    obtain ⟨k, rfl⟩ : ∃ k, m = k + 1 := ⟨m - 1, by omega⟩
    rw [unrle, unrle]
    cases ht : runTurn get npp s with
    | corrupt => rfl
    | done out => rfl
    | go s' =>
      have : s.used < s'.used := by
        unfold runTurn at ht
        split at ht
        · cases ht
        split at ht
        · cases ht
        split at ht
        · cases ht
        split at ht
        · cases ht; simp
        split at ht
        · cases ht; simp
        split at ht
        · cases ht
        split at ht
        · cases ht; simp
        split at ht
        · cases ht; simp
        split at ht
        · cases ht
        split at ht
        · cases ht; simp
        split at ht
        · cases ht; simp
        split at ht
        · cases ht
        split at ht
        · cases ht
        · cases ht; simp
      exact ih k s' (by omega) (by omega)

end Simox.Bz
