import Verif.Wsf.BzLemmas
import Verif.Workspace.Lemmas
import Verif.Rle.Props

/-!
# Loading and saving the voxel data
-/

namespace Simox.Wsf

open Workspace Spec
open Workspace.Spec (InRange Fits)

/-- The position of a voxel. -/
def posOf (u : Vox) : Nat × Nat × Nat := (u.a, u.b, u.c)

/-- A position of the grid. -/
def InGrid (s : Vox) (p : Nat × Nat × Nat) : Prop := p.1 < s.a ∧ p.2.1 < s.b ∧ p.2.2 < s.c

theorem mem_grid {s : Vox} {p : Nat × Nat × Nat} : p ∈ grid s ↔ InGrid s p := by
  unfold grid InGrid
  simp only [List.mem_flatMap, List.mem_map, List.mem_range]
  constructor
  · rintro ⟨a, ha, b, hb, c, hc, rfl⟩; exact ⟨ha, hb, hc⟩
  · rintro ⟨ha, hb, hc⟩; exact ⟨_, ha, _, hb, _, hc, rfl⟩

theorem nodup_grid (s : Vox) : (grid s).Nodup := by
  unfold grid
  refine nodup_flatMap_range _ _ (fun p => p.1) (fun a => ?_) ?_
  · refine nodup_flatMap_range _ _ (fun p => p.2.1) (fun b => ?_) ?_
    · rw [List.nodup_map_iff_inj_on List.nodup_range]
      intro i _ j _ h
      simpa using h
    · intro b p hp
      simp only [List.mem_map] at hp
      obtain ⟨_, _, rfl⟩ := hp
      rfl
  · intro a p hp
    simp only [List.mem_flatMap, List.mem_map] at hp
    obtain ⟨_, _, _, _, rfl⟩ := hp
    rfl

theorem setBlock_spec {w : WDA} {p : Nat × Nat × Nat} {l : List UInt8} (hs : Fits w.sizes)
    (hp : InGrid w.sizes p) :
    ∃ w', setBlock w p l = some w' ∧ Same w w' ∧ w'.maxEntry = w.maxEntry ∧ w'.filled = w.filled ∧
      ∀ u, InRange w.sizes u → val w' u =
        if posOf u = p then (l.getD (posRot w.sizes u) 0).toNat else val w u := by
  have hlt := (posTr_eq (v := ⟨p.1, p.2.1, p.2.2, 0, 0, 0⟩) hs hp.1 hp.2.1 hp.2.2).2
  obtain ⟨w1, e, sm, hm, hf, _, hv⟩ := ensureData_spec hlt
  refine ⟨{ w1 with data := upd w1.data (posTr w1.sizes ⟨p.1, p.2.1, p.2.2, 0, 0, 0⟩) (some (source l)) },
    by unfold setBlock setDataRot; rw [e]; rfl, ⟨sm.sizes, sm.minValid, sm.adjust⟩, hm, hf, ?_⟩
  intro u hu
  have hu' := hv u
  unfold val at hu' ⊢
  simp only [sm.sizes] at hu' ⊢
  by_cases h : posOf u = p
  · subst h
    rw [if_pos rfl]
    have : posTr w.sizes u = posTr w.sizes ⟨(posOf u).1, (posOf u).2.1, (posOf u).2.2, 0, 0, 0⟩ := rfl
    rw [this]
    simp [upd, source]
  · rw [if_neg h]
    have : posTr w.sizes u ≠ posTr w.sizes ⟨p.1, p.2.1, p.2.2, 0, 0, 0⟩ := by
      intro g
      have g2 : posTr w.sizes u = posTr w.sizes ⟨p.1, p.2.1, p.2.2, u.d, u.e, u.f⟩ := g
      have := posTr_inj hs hu (v := ⟨p.1, p.2.1, p.2.2, u.d, u.e, u.f⟩)
        ⟨hp.1, hp.2.1, hp.2.2, hu.2.2.2⟩ g2
      exact h (by unfold posOf; rw [this.1, this.2.1, this.2.2])
    simp only [upd, if_neg this]
    exact hu'

/-- The data contains the given blocks at the positions `ps` and is otherwise that of `w`. -/
def Filled (w w' : WDA) (ps : List (Nat × Nat × Nat)) (blk : Nat × Nat × Nat → List UInt8) : Prop :=
  Same w w' ∧ w'.maxEntry = w.maxEntry ∧ w'.filled = w.filled ∧ ∀ u, InRange w.sizes u → val w' u =
    if posOf u ∈ ps then ((blk (posOf u)).getD (posRot w.sizes u) 0).toNat else val w u

theorem filled_nil (w : WDA) (blk) : Filled w w [] blk := ⟨Same.refl _, rfl, rfl, by simp⟩

theorem filled_cons {w w1 w2 : WDA} {p : Nat × Nat × Nat} {ps : List (Nat × Nat × Nat)}
    {blk : Nat × Nat × Nat → List UInt8} (sm : Same w w1)
    (hm : w1.maxEntry = w.maxEntry) (hf : w1.filled = w.filled)
    (h1 : ∀ u, InRange w.sizes u → val w1 u =
      if posOf u = p then ((blk p).getD (posRot w.sizes u) 0).toNat else val w u)
    (h2 : Filled w1 w2 ps blk) : Filled w w2 (p :: ps) blk := by
  refine ⟨sm.trans h2.1, h2.2.1.trans hm, h2.2.2.1.trans hf, ?_⟩
  intro u hu
  have := h2.2.2.2 u (by rw [sm.sizes]; exact hu)
  rw [sm.sizes] at this
  rw [this, h1 u hu]
  by_cases g1 : posOf u ∈ ps
  · rw [if_pos g1, if_pos (List.mem_cons_of_mem _ g1)]
  · rw [if_neg g1]
    by_cases g2 : posOf u = p
    · rw [if_pos g2, if_pos (by rw [g2]; exact List.mem_cons_self), g2]
    · rw [if_neg g2, if_neg (by simp [g1, g2])]

/-! ## The old formats -/

theorem convert_spec {s : Vox} (hs : Fits s) (rot : Nat) (blk : Nat × Nat × Nat → List UInt8)
    (hb : ∀ p, (blk p).length = rot) :
    ∀ (ps : List (Nat × Nat × Nat)) (w : WDA), w.sizes = s → ps.Nodup → (∀ p ∈ ps, InGrid s p) →
      ∃ w', convert rot ps (ps.flatMap blk) w = some w' ∧ Filled w w' ps blk
  | [], w, _, _, _ => ⟨w, rfl, filled_nil _ _⟩
  | p :: ps, w, hw, hn, hp => by
    subst hw
    rw [List.nodup_cons] at hn
    obtain ⟨w1, e, sm, hm, hf, hv⟩ := setBlock_spec (l := blk p) hs (hp p List.mem_cons_self)
    obtain ⟨w2, e2, f2⟩ := convert_spec hs rot blk hb ps w1 sm.sizes hn.2
      (fun q hq => hp q (List.mem_cons_of_mem _ hq))
    refine ⟨w2, ?_, filled_cons sm hm hf hv f2⟩
    rw [convert, List.flatMap_cons, List.take_left' (hb p), List.drop_left' (hb p), e]
    exact e2

/-! ## bzip2 -/

theorem zero_block {l : List UInt8} (h : l.all (· = 0) = true) (i : Nat) : (l.getD i 0).toNat = 0 := by
  rw [List.getD_eq_getElem?_getD]
  cases g : l[i]? with
  | none => rfl
  | some y =>
    have hm := List.mem_of_getElem? g
    have := List.all_eq_true.mp h y hm
    simp only [decide_eq_true_eq] at this
    simp [this]

/-- The loop over the positions reads all blocks; the stream is then left as `close_spec` describes. -/
theorem loadBz_spec {c : Codec} {x : List UInt8} {n : Nat} (h : Stream c x n) {t : List UInt8} (ht : t ≠ [])
    {s : Vox} (hs : Fits s) {rot : Nat} (hrot : 0 < rot) (blk : Nat × Nat × Nat → List UInt8)
    (hb : ∀ p, (blk p).length = rot) :
    ∀ (ps : List (Nat × Nat × Nat)) (w : WDA) (b : Bz) (file : List UInt8) (k d : Nat), w.sizes = s →
      ps.Nodup → (∀ p ∈ ps, InGrid s p) → (∀ u, InRange s u → posOf u ∈ ps → val w u = 0) →
      At c x n (c.enc x ++ t) b file k d → x.drop d = ps.flatMap blk → d ≤ x.length →
      (d = x.length → k = (c.enc x).length ∨ b.availIn = []) →
      ∃ w' b' file' k', loadBz c rot ps w b file = some (w', true, b', file') ∧ Filled w w' ps blk ∧
        At c x n (c.enc x ++ t) b' file' k' x.length ∧ (k' = (c.enc x).length ∨ b'.availIn = [])
  | [], w, b, file, k, d => by
    intro _ _ _ _ a hx hd he
    have : d = x.length := by
      have := congrArg List.length hx
      simp only [List.length_drop, List.flatMap_nil, List.length_nil] at this
      omega
    subst this
    exact ⟨w, b, file, k, rfl, filled_nil _ _, a, he rfl⟩
  | p :: ps, w, b, file, k, d => by
    intro hw hn hp hz a hx hd _
    subst hw
    rw [List.nodup_cons] at hn
    have hlen : x.length - d = rot + (ps.flatMap blk).length := by
      have := congrArg List.length hx
      rw [List.length_drop, List.flatMap_cons, List.length_append, hb p] at this
      exact this
    obtain ⟨r1, r2, k1, r3, r4⟩ := bzRead_spec h ht hrot a (by omega)
    rw [hx, List.flatMap_cons, List.take_left' (hb p)] at r2
    have hx' : x.drop (d + rot) = ps.flatMap blk := by
      rw [← List.drop_drop, hx, List.flatMap_cons, List.drop_left' (hb p)]
    have hne : ¬ ((!(bzRead c rot b file).ok) = true ∨
        (bzRead c rot b file).bytes.length ≠ rot ∧ (bzRead c rot b file).bytes.length ≠ 0) := by
      rw [r1, r2, hb p]; simp
    have hp' : ∀ q ∈ ps, InGrid w.sizes q := fun q hq => hp q (List.mem_cons_of_mem _ hq)
    rw [loadBz]
    rw [if_neg hne, if_neg (by rw [r2, hb p]; omega)]
    by_cases hall : (bzRead c rot b file).bytes.all (· = 0) = true
    · rw [if_pos hall]
      obtain ⟨w2, b2, file2, k2, g1, g2, g3, g4⟩ := loadBz_spec h ht hs hrot blk hb ps w _ _ k1 (d + rot) rfl
        hn.2 hp' (fun u hu hm => hz u hu (List.mem_cons_of_mem _ hm)) r3 hx' (by omega) r4
      refine ⟨w2, b2, file2, k2, g1, filled_cons (Same.refl _) rfl rfl ?_ g2, g3, g4⟩
      intro u hu
      by_cases g : posOf u = p
      · rw [if_pos g, hz u hu (by rw [g]; exact List.mem_cons_self), zero_block (by rw [← r2]; exact hall)]
      · rw [if_neg g]
    · rw [if_neg hall]
      obtain ⟨w1, e, sm, hm, hf, hv⟩ := setBlock_spec (l := blk p) hs (hp p List.mem_cons_self)
      obtain ⟨w2, b2, file2, k2, g1, g2, g3, g4⟩ := loadBz_spec h ht hs hrot blk hb ps w1 _ _ k1 (d + rot)
        sm.sizes hn.2 hp' (by
          intro u hu hm
          rw [hv u hu, if_neg (by intro g; rw [g] at hm; exact hn.1 hm)]
          exact hz u hu (List.mem_cons_of_mem _ hm)) r3 hx' (by omega) r4
      refine ⟨w2, b2, file2, k2, ?_, filled_cons sm hm hf hv g2, g3, g4⟩
      rw [r2, e]
      exact g1

/-! ## What was saved -/

theorem savedBlock_length (w : WDA) (p) : (savedBlock w p).length = allocRot w.sizes := by
  unfold savedBlock
  split
  · split <;> simp [blockBytes]
  · simp

theorem savedBlock_val {w : WDA} (hs : Fits w.sizes)
    (hb : ∀ p blk, w.data p = some blk → ∀ i, blk i ≤ 255) {u : Vox} (hu : InRange w.sizes u) :
    ((savedBlock w (posOf u)).getD (posRot w.sizes u) 0).toNat = val w u := by
  have hr := inRange_rot hs hu
  have zero : ((List.replicate (allocRot w.sizes) (0 : UInt8)).getD (posRot w.sizes u) 0).toNat = 0 := by
    rw [List.getD_eq_getElem?_getD, List.getElem?_replicate]
    simp [hr]
  have e : posTr w.sizes u = posTr w.sizes ⟨(posOf u).1, (posOf u).2.1, (posOf u).2.2, 0, 0, 0⟩ := rfl
  have hE : hasEntry w (posOf u).1 (posOf u).2.1 (posOf u).2.2 =
      (w.data (posTr w.sizes ⟨(posOf u).1, (posOf u).2.1, (posOf u).2.2, 0, 0, 0⟩)).isSome := by
    unfold hasEntry
    have h1 := hu.1; have h2 := hu.2.1; have h3 := hu.2.2.1
    rw [if_neg (by unfold posOf; simp only; omega)]
  unfold savedBlock val
  rw [hE, e]
  generalize posTr w.sizes ⟨(posOf u).1, (posOf u).2.1, (posOf u).2.2, 0, 0, 0⟩ = q
  cases g : w.data q with
  | none => simpa using zero
  | some blk =>
    simp only [Option.isSome_some, if_true]
    rw [List.getD_eq_getElem?_getD]
    unfold blockBytes
    rw [List.getElem?_map, List.getElem?_range hr]
    simp only [Option.map_some, Option.getD_some, UInt8.toNat_ofNat']
    have := hb q blk g (posRot w.sizes u)
    omega

/-- Data that was filled with the saved blocks has the contents that were saved. -/
theorem filled_saved {w w0 w' : WDA} (hs : Fits w.sizes)
    (hb : ∀ p blk, w.data p = some blk → ∀ i, blk i ≤ 255) (h0 : w0.sizes = w.sizes)
    (h : Filled w0 w' (grid w.sizes) (savedBlock w)) :
    w'.sizes = w.sizes ∧ ∀ u, InRange w.sizes u → get w' u = get w u := by
  have e : w'.sizes = w.sizes := h.1.sizes.trans h0
  refine ⟨e, ?_⟩
  intro u hu
  rw [get_eq (by rw [e]; exact hs) (by rw [e]; exact hu), get_eq hs hu, h.2.2.2 u (by rw [h0]; exact hu),
    if_pos (mem_grid.mpr ⟨hu.1, hu.2.1, hu.2.2.1⟩), h0, savedBlock_val hs hb hu]

end Simox.Wsf
