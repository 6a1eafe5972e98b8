import Verif.Wsf.LoadLemmas

/-!
# Reading a file that ends within the compressed data
-/

namespace Simox.Wsf

open Workspace Spec
open Workspace.Spec (InRange Fits)

section
variable {c : Codec} {x : List UInt8} {n : Nat}

/-- The state of reading the first `K` bytes of the stream, `k` of which are processed. -/
structure Cut (c : Codec) (x : List UInt8) (n K : Nat) (b : Bz) (file : List UInt8) (k d : Nat) : Prop where
  le : k ≤ K
  consumed : b.consumed = (c.enc x).take k
  delivered : b.delivered = d
  bound : d ≤ D c x k
  lazy : d < x.length → k ≤ n
  rest : b.availIn ++ file = ((c.enc x).take K).drop k
  idle : b.idle = false

theorem refill_cut {K : Nat} {b : Bz} {file : List UInt8} {k d : Nat} (a : Cut c x n K b file k d) :
    Cut c x n K (refill b file).1 (refill b file).2 k d := by
  unfold refill
  split
  · rename_i g
    refine ⟨a.le, a.consumed, a.delivered, a.bound, a.lazy, ?_, a.idle⟩
    have := a.rest
    rw [g] at this
    simpa using this
  · exact a

theorem readLoop_cut (h : Stream c x n) {K : Nat} (hK : K < n) (len : Nat) :
    ∀ (fuel : Nat) (acc : List UInt8) (b : Bz) (file : List UInt8) (k d : Nat),
      Cut c x n K b file k d → acc.length ≤ len → (readLoop c len fuel acc b file).ok = true →
      ∃ o k', (readLoop c len fuel acc b file).bytes = acc ++ o ∧ acc.length + o.length = len ∧
        o = (x.drop d).take o.length ∧
        Cut c x n K (readLoop c len fuel acc b file).bz (readLoop c len fuel acc b file).file k' (d + o.length)
  | 0, acc, b, file, k, d => by
    intro _ _ hok
    simp [readLoop] at hok
  | fuel + 1, acc, b, file, k, d => by
    intro a hacc hok
    have hL := h.lt
    have a2 := refill_cut a
    obtain ⟨k', s⟩ := decompress_step h (c.enc x ++ []) ⟨[], rfl⟩ (refill b file).1.availIn k d
      (len - acc.length) (by have := a.le; omega) a.bound a.lazy (by
        rw [List.append_nil]
        have : (refill b file).1.availIn <+: ((c.enc x).take K).drop k := ⟨_, a2.rest⟩
        refine this.trans ?_
        rw [List.drop_take]
        exact List.take_prefix _ _)
    have hu := s.input
    have hkK : k' ≤ K := by
      obtain ⟨u, hu1, hu2⟩ := hu
      have e := congrArg List.length a2.rest
      rw [hu1] at e
      simp only [List.length_append, List.length_drop, List.length_take] at e
      have := s.le
      have := a.le
      omega
    rw [readLoop] at hok ⊢
    rw [a2.consumed, a2.delivered] at hok ⊢
    simp only [a.idle, Bool.false_eq_true, if_false] at hok ⊢
    generalize hr : decompress c ((c.enc x).take k) d (len - acc.length) (refill b file).1.availIn = r at *
    cases e : r.1 with
    | error => exact absurd e s.noError
    | streamEnd => have := (s.atEnd e).1; omega
    | ok =>
      simp only [e] at hok ⊢
      have hnext : Cut c x n K r.2.2 (refill b file).2 k' (d + r.2.1.length) := by
        refine ⟨hkK, s.consumed, s.delivered, by rw [← s.delivered]; exact s.bound,
          by rw [← s.delivered]; exact s.lazy, ?_, (s.going e).1⟩
        obtain ⟨u, hu1, hu2⟩ := hu
        have e2 := a2.rest
        rw [hu1, List.append_assoc] at e2
        have e3 := congrArg (List.drop u.length) e2
        rw [List.drop_left, List.drop_drop] at e3
        rw [e3]
        congr 1
        have := s.le
        omega
      have hroom := s.room
      have hout := s.out
      by_cases g1 : (refill b file).2 = [] ∧ r.2.2.availIn = [] ∧ (acc ++ r.2.1).length < len
      · rw [if_pos g1] at hok
        simp at hok
      · rw [if_neg g1] at hok ⊢
        by_cases g2 : (acc ++ r.2.1).length = len
        · rw [if_pos g2] at hok ⊢
          exact ⟨r.2.1, k', rfl, by rw [← List.length_append]; exact g2, hout, hnext⟩
        · rw [if_neg g2] at hok ⊢
          obtain ⟨o, k2, h1, h2, h3, h4⟩ := readLoop_cut h hK len fuel (acc ++ r.2.1) r.2.2 (refill b file).2
            k' (d + r.2.1.length) hnext (by rw [List.length_append]; omega) hok
          refine ⟨r.2.1 ++ o, k2, by rw [h1, List.append_assoc], ?_, ?_, ?_⟩
          · rw [List.length_append] at h2 ⊢; omega
          · rw [List.length_append]
            exact append_take hout h3
          · rw [List.length_append, ← Nat.add_assoc]; exact h4

theorem bzRead_cut (h : Stream c x n) {K : Nat} (hK : K < n) {len : Nat} {b : Bz}
    {file : List UInt8} {k d : Nat} (a : Cut c x n K b file k d) (hok : (bzRead c len b file).ok = true) :
    (bzRead c len b file).bytes.length = len ∧
    (bzRead c len b file).bytes = (x.drop d).take len ∧
    ∃ k', Cut c x n K (bzRead c len b file).bz (bzRead c len b file).file k' (d + len) := by
  unfold bzRead at hok ⊢
  by_cases g : len = 0
  · rw [if_pos g] at hok; simp at hok
  · rw [if_neg g] at hok ⊢
    obtain ⟨o, k', h1, h2, h3, h4⟩ := readLoop_cut h hK len (file.length + 2) [] b file k d a (by simp) hok
    simp only [List.length_nil, Nat.zero_add] at h2
    rw [h2] at h3 h4
    exact ⟨by rw [h1]; simpa using h2, by rw [h1]; simpa using h3, k', h4⟩

/-- The loop stops before the last block; the blocks before that are read. -/
theorem loadBz_cut (h : Stream c x n) {K : Nat} (hK : K < n) {s : Vox} (hs : Fits s) {rot : Nat}
    (hrot : 0 < rot) (blk : Nat × Nat × Nat → List UInt8) (hb : ∀ p, (blk p).length = rot) :
    ∀ (ps : List (Nat × Nat × Nat)) (w : WDA) (b : Bz) (file : List UInt8) (k d : Nat), w.sizes = s →
      ps.Nodup → (∀ p ∈ ps, InGrid s p) → (∀ u, InRange s u → posOf u ∈ ps → val w u = 0) →
      Cut c x n K b file k d → x.drop d = ps.flatMap blk → d ≤ x.length →
      ∃ w' b' file' qs, loadBz c rot ps w b file = some (w', false, b', file') ∧ qs <+: ps ∧ Filled w w' qs blk
  | [], w, b, file, k, d => by
    intro _ _ _ _ a hx hd
    exfalso
    have h1 := congrArg List.length hx
    simp only [List.length_drop, List.flatMap_nil, List.length_nil] at h1
    have := a.bound
    have := a.le
    have := D_lt h (k := k) (by omega)
    omega
  | p :: ps, w, b, file, k, d => by
    intro hw hn hp hz a hx hd
    subst hw
    rw [List.nodup_cons] at hn
    have hlen : x.length - d = rot + (ps.flatMap blk).length := by
      have := congrArg List.length hx
      rw [List.length_drop, List.flatMap_cons, List.length_append, hb p] at this
      exact this
    rw [loadBz]
    by_cases hok : (bzRead c rot b file).ok = true
    · obtain ⟨r1, r2, k1, r3⟩ := bzRead_cut h hK a hok
      rw [hx, List.flatMap_cons, List.take_left' (hb p)] at r2
      have hx' : x.drop (d + rot) = ps.flatMap blk := by
        rw [← List.drop_drop, hx, List.flatMap_cons, List.drop_left' (hb p)]
      have hp' : ∀ q ∈ ps, InGrid w.sizes q := fun q hq => hp q (List.mem_cons_of_mem _ hq)
      rw [if_neg (by rw [hok, r1]; simp), if_neg (by rw [r1]; omega)]
      by_cases hall : (bzRead c rot b file).bytes.all (· = 0) = true
      · rw [if_pos hall]
        obtain ⟨w2, b2, file2, qs, g1, g2, g3⟩ := loadBz_cut h hK hs hrot blk hb ps w _ _ k1 (d + rot) rfl
          hn.2 hp' (fun u hu hm => hz u hu (List.mem_cons_of_mem _ hm)) r3 hx' (by omega)
        refine ⟨w2, b2, file2, p :: qs, g1, by rw [List.cons_prefix_cons]; exact ⟨rfl, g2⟩,
          filled_cons (Same.refl _) rfl rfl ?_ g3⟩
        intro u hu
        by_cases g : posOf u = p
        · rw [if_pos g, hz u hu (by rw [g]; exact List.mem_cons_self), zero_block (by rw [← r2]; exact hall)]
        · rw [if_neg g]
      · rw [if_neg hall]
        obtain ⟨w1, e, sm, hm, hf, hv⟩ := setBlock_spec (l := blk p) hs (hp p List.mem_cons_self)
        obtain ⟨w2, b2, file2, qs, g1, g2, g3⟩ := loadBz_cut h hK hs hrot blk hb ps w1 _ _ k1 (d + rot)
          sm.sizes hn.2 hp' (by
            intro u hu hm
            rw [hv u hu, if_neg (by intro g; rw [g] at hm; exact hn.1 hm)]
            exact hz u hu (List.mem_cons_of_mem _ hm)) r3 hx' (by omega)
        refine ⟨w2, b2, file2, p :: qs, ?_, by rw [List.cons_prefix_cons]; exact ⟨rfl, g2⟩,
          filled_cons sm hm hf hv g3⟩
        rw [r2, e]
        exact g1
    · rw [if_pos (by left; simpa using hok)]
      exact ⟨w, _, _, [], rfl, List.nil_prefix, filled_nil _ _⟩

end

section

variable {sub : F → F → F} {robot : Robot} {type : Str} {limits : List (F × F)} {m : Members} {w : WDA}
  {c : Codec} {n : Nat}

theorem open_cut {x : List UInt8} {K : Nat} : Cut c x n K Bz.open ((c.enc x).take K) 0 0 where
  le := by omega
  consumed := by simp [Bz.open]
  delivered := rfl
  bound := by omega
  lazy := by intro; omega
  rest := by simp [Bz.open]
  idle := rfl

theorem load_cut (h : Sound sub robot type limits m w) (hc : voxelCount m < 2 ^ 31) {cur : Int × Int}
    (hv : Readable cur m.versionMajor m.versionMinor)
    (hb : m.versionMajor > 2 ∨ (m.versionMajor = 2 ∧ m.versionMinor ≥ 5))
    (hS : Stream c (contents w) n) {K : Nat} (hK : K < n) :
    ∃ w' r qs, load c sub robot type cur (saveHead robot type limits m w ++ (c.enc (contents w)).take K) =
      .ok (reloaded m, w') r ∧ qs <+: grid w.sizes ∧ Filled (new w.sizes true) w' qs (savedBlock w) := by
  obtain ⟨f, _, hp⟩ := fits h (addressable_of_count h hc)
  obtain ⟨w', b, file, qs, e1, e2, e3⟩ := loadBz_cut hS hK f hp (savedBlock w) (savedBlock_length w)
    (grid w.sizes) (new w.sizes true) Bz.open ((c.enc (contents w)).take K) 0 0 rfl (nodup_grid _) grid_in
    (fun u _ _ => new_val _ u) open_cut rfl (by omega)
  refine ⟨w', bzClose b file, qs, ?_, e2, e3⟩
  rw [load]
  refine bind_eq (loadHead_write h hv _) ?_
  have hd : loadData c m.versionMajor m.versionMinor m.num ((c.enc (contents w)).take K) =
      .ok (w', false) (bzClose b file) := by
    refine loadData_prep h hc _ _ _ ?_
    rw [if_neg (by omega), if_pos hb]
    unfold bzData
    rw [e1]
  refine bind_eq hd ?_
  rw [if_pos rfl]
  exact pure_ok _ _

end

end Simox.Wsf
