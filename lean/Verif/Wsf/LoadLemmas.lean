import Verif.Wsf.HeadLemmas

/-!
# Loading whole files
-/

namespace Simox.Wsf

open Workspace Spec
open Workspace.Spec (InRange Fits)

theorem takeWhile_prefix {α : Type} (q : α → Bool) : ∀ l : List α, l.takeWhile q <+: l
  | [] => List.prefix_refl _
  | x :: l => by
    rw [List.takeWhile_cons]
    split
    · rw [List.cons_prefix_cons]; exact ⟨rfl, takeWhile_prefix q l⟩
    · exact List.nil_prefix

theorem readU32_cases (s : List UInt8) : readU32 s = .ub ∨ ∃ v, readU32 s = .ok v (s.drop 4) := by
  unfold readU32
  split
  · exact Or.inr ⟨_, rfl⟩
  · exact Or.inl rfl

theorem readInt_cases (s : List UInt8) : readInt s = .ub ∨ ∃ v, readInt s = .ok v (s.drop 4) := by
  rcases readU32_cases s with h | ⟨v, h⟩
  · exact Or.inl (bind_ub h)
  · exact Or.inr ⟨i32 v, bind_eq h (pure_ok _ _)⟩

/-- A non-empty string that was read follows its length. -/
theorem readString_prefix {res a : Str} {s r : List UInt8} (h : readString res s = .ok a r) :
    a = res ∨ a <+: s.drop 4 := by
  rw [readString] at h
  rcases readInt_cases s with g | ⟨v, g⟩
  · rw [bind_ub g] at h
    exact absurd h (by simp)
  · rw [bind_ok g] at h
    by_cases hv : v ≤ 0
    · rw [if_pos hv, pure_ok] at h
      injection h with h _
      exact Or.inl h.symm
    · rw [if_neg hv] at h
      by_cases hl : v.toNat ≤ (s.drop 4).length
      · have g2 : readBytes v.toNat (s.drop 4) = .ok ((s.drop 4).take v.toNat) ((s.drop 4).drop v.toNat) :=
          if_pos hl
        rw [bind_ok g2, pure_ok] at h
        injection h with h _
        subst h
        exact Or.inr ((takeWhile_prefix _ _).trans (List.take_prefix _ _))
      · have g2 : readBytes v.toNat (s.drop 4) = .ub := if_neg hl
        rw [bind_ub g2] at h
        exact absurd h (by simp)

theorem dataEnd_get {i : Nat} {y : UInt8} (h : dataEnd[i]? = some y) : y ≠ 8 ∧ y ≠ 0 := by
  have hm := List.mem_of_getElem? h
  have : ∀ y ∈ dataEnd, y ≠ 8 ∧ y ≠ 0 := by decide
  exact this y hm

theorem prefix_get {l s : List UInt8} (h : l <+: s) {i : Nat} (hi : i < l.length) : s[i]? = l[i]? := by
  obtain ⟨t, rfl⟩ := h
  exact List.getElem?_append_left hi

/-- The end mark is not found behind a few more bytes. -/
theorem end_missed {u : List UInt8} (h1 : 0 < u.length) (h2 : u.length ≤ 10) {a : Str} {r : List UInt8}
    (h : readString dataStart (u ++ writeString dataEnd) = .ok a r) : a ≠ dataEnd := by
  intro e
  subst e
  have hlen : dataEnd.length = 8 := rfl
  rcases readString_prefix h with g | g
  · exact absurd g (by decide)
  · by_cases h4 : u.length < 4
    · have := prefix_get g (i := 0) (by decide)
      rw [List.getElem?_drop, List.getElem?_append_right (by omega)] at this
      have hk : u.length = 1 ∨ u.length = 2 ∨ u.length = 3 := by omega
      rcases hk with hk | hk | hk <;> rw [hk] at this <;> exact absurd this (by decide)
    · have hi : u.length - 4 < 8 := by omega
      have := prefix_get g (i := u.length - 4) (by omega)
      rw [List.getElem?_drop, List.getElem?_append_right (by omega)] at this
      have e0 : 4 + (u.length - 4) - u.length = 0 := by omega
      rw [e0] at this
      have h0 : (writeString dataEnd)[0]? = some 8 := by decide
      rw [h0] at this
      exact (dataEnd_get this.symm).1 rfl

attribute [local irreducible] readInt readFloat readString writeInt writeFloat writeString readBytes le32

/-! ## Sizes -/

theorem mulInts_pos : ∀ (ys : List Int) (x : Int), 0 < x → (∀ y ∈ ys, 0 < y) → ys.foldl (· * ·) x < 2 ^ 31 →
    mulInts x ys = some (ys.foldl (· * ·) x) ∧ x ≤ ys.foldl (· * ·) x
  | [], x, _, _, _ => ⟨rfl, Int.le_refl _⟩
  | y :: ys, x, hx, hy, hp => by
    have hxy : x ≤ x * y := by
      have := hy y List.mem_cons_self
      have : x * 1 ≤ x * y := Int.mul_le_mul_of_nonneg_left (by omega) (by omega)
      omega
    obtain ⟨h1, h2⟩ := mulInts_pos ys (x * y) (by omega) (fun z hz => hy z (List.mem_cons_of_mem _ hz)) hp
    rw [List.foldl_cons] at hp ⊢
    refine ⟨?_, by omega⟩
    rw [mulInts, if_pos (by unfold fitsInt; simp only [decide_eq_true_eq]; omega), h1]

theorem mulInts_overflow : ∀ (ys : List Int) (x : Int), 0 < x → (∀ y ∈ ys, 0 < y) → x < 2 ^ 31 →
    2 ^ 31 ≤ ys.foldl (· * ·) x → mulInts x ys = none
  | [], x, _, _, hs, hp => by
    simp only [List.foldl_nil] at hp
    omega
  | y :: ys, x, hx, hy, hs, hp => by
    have hy0 := hy y List.mem_cons_self
    have hxy : 0 < x * y := Int.mul_pos hx hy0
    rw [mulInts]
    by_cases g : x * y < 2 ^ 31
    · rw [if_pos (by unfold fitsInt; simp only [decide_eq_true_eq]; omega)]
      exact mulInts_overflow ys (x * y) hxy (fun z hz => hy z (List.mem_cons_of_mem _ hz)) g hp
    · rw [if_neg (by unfold fitsInt; simp only [decide_eq_true_eq]; omega)]

section

variable {sub : F → F → F} {robot : Robot} {type : Str} {limits : List (F × F)} {m : Members} {w : WDA}

theorem sizesOf_eq (h : Sound sub robot type limits m w) : sizesOf m.num = w.sizes := by
  rw [h.sizes]
  have key : ∀ i, (m.num i % 2 ^ 32).toNat = (m.num i).toNat := by
    intro i
    have := h.num i
    omega
  unfold sizesOf
  simp only [key]

theorem nums_pos (h : Sound sub robot type limits m w) (l : List (Fin 6)) : ∀ y ∈ l.map m.num, 0 < y := by
  intro y hy
  simp only [List.mem_map] at hy
  obtain ⟨i, _, rfl⟩ := hy
  exact (h.num i).1

theorem mul_toNat3 {a b c : Int} (ha : 0 < a) (hb : 0 < b) (hc : 0 < c) :
    (a * b * c).toNat = a.toNat * b.toNat * c.toNat := by
  rw [Int.toNat_mul (Int.le_of_lt (Int.mul_pos ha hb)) (Int.le_of_lt hc),
    Int.toNat_mul (Int.le_of_lt ha) (Int.le_of_lt hb)]

theorem sizes_rot (h : Sound sub robot type limits m w) :
    (m.num 3 * m.num 4 * m.num 5).toNat = w.sizes.d * w.sizes.e * w.sizes.f := by
  rw [h.sizes, mul_toNat3 (h.num 3).1 (h.num 4).1 (h.num 5).1]

theorem sizes_tr (h : Sound sub robot type limits m w) :
    (m.num 0 * m.num 1 * m.num 2).toNat = w.sizes.a * w.sizes.b * w.sizes.c := by
  rw [h.sizes, mul_toNat3 (h.num 0).1 (h.num 1).1 (h.num 2).1]

theorem fits (h : Sound sub robot type limits m w) (ha : Addressable m) :
    Fits w.sizes ∧ (m.num 3 * m.num 4 * m.num 5).toNat = allocRot w.sizes ∧ 0 < allocRot w.sizes := by
  have h1 := sizes_rot h
  have h2 := sizes_tr h
  have p3 := Int.mul_pos (Int.mul_pos (h.num 3).1 (h.num 4).1) (h.num 5).1
  have hA := ha.1
  have hB := ha.2
  generalize m.num 3 * m.num 4 * m.num 5 = R at *
  generalize m.num 0 * m.num 1 * m.num 2 = T at *
  have f : Fits w.sizes := ⟨by omega, by omega⟩
  have e : allocRot w.sizes = w.sizes.d * w.sizes.e * w.sizes.f := u32_of_lt f.2
  exact ⟨f, by omega, by omega⟩

theorem count_split (m : Members) :
    voxelCount m = (m.num 0 * m.num 1 * m.num 2) * (m.num 3 * m.num 4 * m.num 5) := by
  unfold voxelCount
  ac_rfl

theorem addressable_of_count (h : Sound sub robot type limits m w) (hc : voxelCount m < 2 ^ 31) :
    Addressable m := by
  rw [count_split] at hc
  have p1 := Int.mul_pos (Int.mul_pos (h.num 0).1 (h.num 1).1) (h.num 2).1
  have p2 := Int.mul_pos (Int.mul_pos (h.num 3).1 (h.num 4).1) (h.num 5).1
  unfold Addressable
  generalize m.num 3 * m.num 4 * m.num 5 = R at *
  generalize m.num 0 * m.num 1 * m.num 2 = T at *
  have h1 : T * 1 ≤ T * R := Int.mul_le_mul_of_nonneg_left (by omega) (by omega)
  have h2 : 1 * R ≤ T * R := Int.mul_le_mul_of_nonneg_right (by omega) (by omega)
  omega

theorem size_ok (h : Sound sub robot type limits m w) (hc : voxelCount m < 2 ^ 31) :
    mulInts (m.num 0) [m.num 1, m.num 2, m.num 3, m.num 4, m.num 5] = some (voxelCount m) :=
  (mulInts_pos _ _ (h.num 0).1 (nums_pos h [1, 2, 3, 4, 5]) hc).1

theorem size_bad (h : Sound sub robot type limits m w) (hc : 2 ^ 31 ≤ voxelCount m) :
    mulInts (m.num 0) [m.num 1, m.num 2, m.num 3, m.num 4, m.num 5] = none :=
  mulInts_overflow _ _ (h.num 0).1 (nums_pos h [1, 2, 3, 4, 5]) (h.num 0).2 hc

theorem rot_ok (h : Sound sub robot type limits m w) (ha : Addressable m) :
    mulInts (m.num 3) [m.num 4, m.num 5] = some (m.num 3 * m.num 4 * m.num 5) :=
  (mulInts_pos _ _ (h.num 3).1 (nums_pos h [4, 5]) ha.2).1

end

theorem flatMap_length {α β : Type} {f : α → List β} {n : Nat} :
    ∀ (l : List α), (∀ a ∈ l, (f a).length = n) → (l.flatMap f).length = l.length * n
  | [], _ => by simp
  | a :: l, h => by
    rw [List.flatMap_cons, List.length_append, h a List.mem_cons_self,
      flatMap_length l (fun b hb => h b (List.mem_cons_of_mem _ hb)), List.length_cons, Nat.succ_mul]
    omega

theorem grid_length (s : Vox) : (grid s).length = s.a * s.b * s.c := by
  unfold grid
  rw [flatMap_length (n := s.b * s.c), List.length_range, Nat.mul_assoc]
  intro a _
  rw [flatMap_length (n := s.c), List.length_range]
  intro b _
  simp

theorem contents_length {sub : F → F → F} {robot : Robot} {type : Str} {limits : List (F × F)} {m : Members}
    {w : WDA} (h : Sound sub robot type limits m w) (hc : voxelCount m < 2 ^ 31) :
    (contents w).length = (voxelCount m).toNat ∧ 0 < (voxelCount m) := by
  obtain ⟨f, e, _⟩ := fits h (addressable_of_count h hc)
  have p1 := Int.mul_pos (Int.mul_pos (h.num 0).1 (h.num 1).1) (h.num 2).1
  have p2 := Int.mul_pos (Int.mul_pos (h.num 3).1 (h.num 4).1) (h.num 5).1
  rw [count_split, Int.toNat_mul (by omega) (by omega), e, sizes_tr h]
  refine ⟨?_, Int.mul_pos p1 p2⟩
  unfold contents
  rw [flatMap_length _ (fun p _ => savedBlock_length w p), grid_length]

/-! ## The data -/

/-- The loaded data has the entries of `w`. -/
def Loaded (w w' : WDA) : Prop := Filled (new w.sizes true) w' (grid w.sizes) (savedBlock w)

theorem grid_in {s : Vox} : ∀ p ∈ grid s, InGrid s p := fun _ h => mem_grid.mp h

theorem new_val (s : Vox) (u : Vox) : val (new s true) u = 0 := rfl

section

variable {sub : F → F → F} {robot : Robot} {type : Str} {limits : List (F × F)} {m : Members} {w : WDA}
  {c : Codec} {n : Nat}

theorem loadData_prep (h : Sound sub robot type limits m w) (hc : voxelCount m < 2 ^ 31) (v0 v1 : Int)
    (s : List UInt8) {x : Res (WDA × Bool)}
    (g : (if v0 ≤ 1 ∨ (v0 = 2 ∧ v1 ≤ 3) then (do
        return (← loadOld v0 v1 (voxelCount m).toNat (allocRot w.sizes) (grid w.sizes) (new w.sizes true), true)
          : Rd (WDA × Bool))
      else if v0 > 2 ∨ (v0 = 2 ∧ v1 ≥ 5) then
        bzData c (allocRot w.sizes) (grid w.sizes) (new w.sizes true)
      else do
        let _ ← orUb (mulInts (allocRot w.sizes : Int) [3])
        return (← loadBlocks (allocRot w.sizes) (grid w.sizes) (new w.sizes true), true)) s = x) :
    loadData c v0 v1 m.num s = x := by
  have ha := addressable_of_count h hc
  obtain ⟨_, e, _⟩ := fits h ha
  unfold loadData
  refine bind_eq (orUb_ok (size_ok h hc) _) ?_
  refine bind_eq (orUb_ok (rot_ok h ha) _) ?_
  have e2 : m.num 3 * m.num 4 * m.num 5 = (allocRot w.sizes : Int) := by
    have := Int.mul_pos (Int.mul_pos (h.num 3).1 (h.num 4).1) (h.num 5).1
    omega
  rw [e, sizesOf_eq h, e2]
  exact g

theorem three_ok {k : Nat} (h : 3 * k < 2 ^ 31) : mulInts (k : Int) [3] = some ((k : Int) * 3) := by
  rw [mulInts, if_pos (by unfold fitsInt; simp only [decide_eq_true_eq]; omega)]
  rfl

theorem loadData_bz (h : Sound sub robot type limits m w) (hc : voxelCount m < 2 ^ 31) {v0 v1 : Int}
    (hv : v0 > 2 ∨ (v0 = 2 ∧ v1 ≥ 5)) (hS : Stream c (contents w) n) {t : List UInt8} (ht : t ≠ []) :
    ∃ w' r, loadData c v0 v1 m.num (saveData c w ++ t) = .ok (w', true) r ∧ Loaded w w' ∧
      (¬ HasMultiple n (saveData c w).length → r = t) ∧
      (HasMultiple (n + 1) (saveData c w).length → ∃ u, r = u ++ t ∧ 0 < u.length ∧ u.length ≤ 10) := by
  obtain ⟨f, _, hp⟩ := fits h (addressable_of_count h hc)
  obtain ⟨w', b, file, k, e1, e2, e3, e4⟩ := loadBz_spec hS ht f hp (savedBlock w) (savedBlock_length w)
    (grid w.sizes) (new w.sizes true) Bz.open (c.enc (contents w) ++ t) 0 0 rfl (nodup_grid _) grid_in
    (fun u _ _ => new_val _ u) open_at rfl (by omega) (by
      intro g
      have := (contents_length h hc).1
      have := (contents_length h hc).2
      omega)
  refine ⟨w', bzClose b file, ?_, e2, close_spec hS e3 e4⟩
  refine loadData_prep h hc v0 v1 _ ?_
  rw [if_neg (by omega), if_pos hv]
  show bzData _ _ _ _ (c.enc (contents w) ++ t) = _
  unfold bzData
  rw [e1]

theorem loadOld_ok (h : Sound sub robot type limits m w) (hc : voxelCount m < 2 ^ 31) {v0 v1 : Int}
    {s t : List UInt8} (hr : readOld v0 v1 (voxelCount m).toNat s = .ok (contents w) t) :
    ∃ w', loadOld v0 v1 (voxelCount m).toNat (allocRot w.sizes) (grid w.sizes) (new w.sizes true) s =
      .ok w' t ∧ Loaded w w' := by
  obtain ⟨f, _, hp⟩ := fits h (addressable_of_count h hc)
  obtain ⟨w', e1, e2⟩ := convert_spec f (allocRot w.sizes) (savedBlock w) (savedBlock_length w)
    (grid w.sizes) (new w.sizes true) rfl (nodup_grid _) grid_in
  refine ⟨w', ?_, e2⟩
  unfold loadOld
  refine bind_eq hr ?_
  refine bind_eq (ubIf_ok ?_ _) ?_
  · simp [(contents_length h hc).1]
  · exact orUb_ok e1 t

theorem loadBlocks_ok {rot : Nat} (hrot : 0 < rot) (blk z : Nat × Nat × Nat → List UInt8)
    (hb : ∀ p, (blk p).length = rot) {s : Vox} (hs : Fits s) (t : List UInt8) :
    ∀ (ps : List (Nat × Nat × Nat)) (w : WDA), w.sizes = s → ps.Nodup → (∀ p ∈ ps, InGrid s p) →
      (∀ p ∈ ps, Rle.compress (blk p) = .bytes (z p) ∧ (z p).length < 2 ^ 31) →
      ∃ w', loadBlocks rot ps w (ps.flatMap (fun p => le32 (z p).length ++ z p) ++ t) = .ok w' t ∧
        Filled w w' ps blk
  | [], w, _, _, _, _ => ⟨w, rfl, filled_nil _ _⟩
  | p :: ps, w, hw, hn, hp, hz => by
    subst hw
    rw [List.nodup_cons] at hn
    obtain ⟨w1, e, sm, hm, hf, hv⟩ := setBlock_spec (l := blk p) hs (hp p List.mem_cons_self)
    obtain ⟨w2, e2, f2⟩ := loadBlocks_ok hrot blk z hb hs t ps w1 sm.sizes hn.2
      (fun q hq => hp q (List.mem_cons_of_mem _ hq)) (fun q hq => hz q (List.mem_cons_of_mem _ hq))
    refine ⟨w2, ?_, filled_cons sm hm hf hv f2⟩
    obtain ⟨z1, z2⟩ := hz p List.mem_cons_self
    have hne : blk p ≠ [] := by
      intro g
      have := hb p
      rw [g] at this
      simp at this
      omega
    obtain ⟨o, o1, o2⟩ := Rle.C01_rle_roundtrip (blk p) hne
    rw [z1] at o1
    injection o1 with o1
    subst o1
    have hb2 := Rle.C02_rle_size_bound _ _ z1
    rw [hb p] at hb2
    rw [loadBlocks, List.flatMap_cons, List.append_assoc, List.append_assoc]
    refine bind_eq (readInt_le32 z2 _) ?_
    refine bind_eq (ubIf_ok ?_ _) ?_
    · simp only [decide_eq_false_iff_not]
      omega
    have e3 : (((z p).length : Int)).toNat = (z p).length := by omega
    rw [e3]
    refine bind_eq (readBytes_append _ _) ?_
    refine bind_eq (orUb_ok o2 _) ?_
    refine bind_eq (ubIf_ok ?_ _) ?_
    · simp [hb p]
    refine bind_eq (orUb_ok e _) ?_
    exact e2

/-- The pairs are read back. -/
theorem uncompressData_append : ∀ (l t : List UInt8), 2 ∣ l.length →
    uncompressData (l ++ t) = uncompressData l ++ uncompressData t
  | [], t, _ => by simp [uncompressData]
  | [_], t, h => by simp at h
  | a :: b :: l, t, h => by
    simp only [List.cons_append, uncompressData, List.append_assoc]
    rw [uncompressData_append l t (by simpa [Nat.dvd_add_left, Nat.add_assoc] using h)]

theorem putPair_ok {size : Nat} {out out' : List UInt8} {count value : UInt8}
    (h : putPair size out count value = .ok out') :
    out' = out ++ [count, value] ∧ out'.length < size := by
  unfold putPair at h
  split at h
  · split at h
    · exact absurd h (by simp)
    · injection h with h
      subst h
      exact ⟨rfl, by simp; omega⟩
  · exact absurd h (by simp)

theorem uncompress_pair {out : List UInt8} {count value : UInt8} (h : 2 ∣ out.length) :
    uncompressData (out ++ [count, value]) = uncompressData out ++ List.replicate count.toNat value := by
  rw [uncompressData_append _ _ h]
  simp [uncompressData]

theorem compressLoop_ok {size : Nat} : ∀ (rest out : List UInt8) (cur count : UInt8) (z : List UInt8),
    2 ∣ out.length → 1 ≤ count.toNat → compressLoop size out cur count rest = .ok z →
    2 ∣ z.length ∧ z.length < size ∧
    uncompressData z = uncompressData out ++ (List.replicate count.toNat cur ++ rest)
  | [], out, cur, count, z, hd, h1, h => by
    rw [compressLoop] at h
    obtain ⟨rfl, h2⟩ := putPair_ok h
    exact ⟨by simp only [List.length_append, List.length_cons, List.length_nil]; omega, h2,
      by rw [uncompress_pair hd]; simp⟩
  | x :: rest, out, cur, count, z, hd, h1, h => by
    rw [compressLoop] at h
    by_cases g : x = cur
    · subst g
      rw [if_pos rfl] at h
      by_cases g2 : count = 255
      · rw [if_pos g2] at h
        cases hp : putPair size out 255 x with
        | ok out' =>
          rw [hp] at h
          obtain ⟨rfl, _⟩ := putPair_ok hp
          obtain ⟨a1, a2, a3⟩ := compressLoop_ok rest _ x 1 z (by simp only [List.length_append, List.length_cons, List.length_nil]; omega) (by decide) h
          refine ⟨a1, a2, ?_⟩
          rw [a3, uncompress_pair hd, g2, List.append_assoc]
          rfl
        | throw => rw [hp] at h; simp at h
        | ub => rw [hp] at h; simp at h
      · rw [if_neg g2] at h
        have hc : (count + 1).toNat = count.toNat + 1 := by
          have : count.toNat ≠ 255 := fun e => g2 (UInt8.toNat_inj.mp e)
          have := count.toNat_lt
          rw [UInt8.toNat_add]
          simp
          omega
        obtain ⟨a1, a2, a3⟩ := compressLoop_ok rest out x (count + 1) z hd (by omega) h
        refine ⟨a1, a2, ?_⟩
        rw [a3, hc, List.replicate_succ']
        simp
    · rw [if_neg g] at h
      cases hp : putPair size out count cur with
      | ok out' =>
        rw [hp] at h
        obtain ⟨rfl, _⟩ := putPair_ok hp
        obtain ⟨a1, a2, a3⟩ := compressLoop_ok rest _ x 1 z (by simp only [List.length_append, List.length_cons, List.length_nil]; omega) (by decide) h
        refine ⟨a1, a2, ?_⟩
        rw [a3, uncompress_pair hd, List.append_assoc]
        rfl
      | throw => rw [hp] at h; simp at h
      | ub => rw [hp] at h; simp at h

theorem compressData_ok {l z : List UInt8} (h : compressData l = .ok z) :
    2 ∣ z.length ∧ z.length < l.length ∧ uncompressData z = l := by
  cases l with
  | nil => simp [compressData] at h
  | cons x rest =>
    obtain ⟨h1, h2, h3⟩ := compressLoop_ok rest [] x 1 z (by simp) (by decide) h
    exact ⟨h1, h2, by rw [h3]; rfl⟩

theorem loadData_old (h : Sound sub robot type limits m w) (hc : voxelCount m < 2 ^ 31) {v0 v1 : Int}
    {d : List UInt8} (hd : OldData w v0 v1 d) (t : List UInt8) :
    ∃ w', loadData c v0 v1 m.num (d ++ t) = .ok (w', true) t ∧ Loaded w w' := by
  have hlen := contents_length h hc
  have hne : contents w ≠ [] := by
    intro g
    rw [g] at hlen
    simp only [List.length_nil] at hlen
    omega
  cases hd with
  | plain v1 h0 h1 =>
    have hr : readOld 1 v1 (voxelCount m).toNat (contents w ++ t) = .ok (contents w) t := by
      unfold readOld
      rw [if_pos ⟨rfl, h1⟩, ← hlen.1]
      exact readBytes_append _ _
    obtain ⟨w', e1, e2⟩ := loadOld_ok h hc hr
    refine ⟨w', loadData_prep h hc _ _ _ ?_, e2⟩
    rw [if_pos (by omega)]
    exact bind_eq e1 (pure_ok _ _)
  | pairs v0 v1 z hv hz =>
    obtain ⟨h1, h2, h3⟩ := compressData_ok hz
    have hr : readOld v0 v1 (voxelCount m).toNat ((le32 z.length ++ z) ++ t) = .ok (contents w) t := by
      unfold readOld
      rw [if_neg (by omega), List.append_assoc]
      refine bind_eq (readInt_le32 (by omega) _) ?_
      refine bind_eq (throwIf_ok (by simp) _) ?_
      have e3 : ((z.length : Int)).toNat = z.length := by omega
      rw [e3]
      refine bind_eq (readBytes_append _ _) ?_
      rw [if_neg (by omega), h3]
      exact pure_ok _ _
    obtain ⟨w', e1, e2⟩ := loadOld_ok h hc hr
    refine ⟨w', loadData_prep h hc _ _ _ ?_, e2⟩
    rw [if_pos (by omega)]
    exact bind_eq e1 (pure_ok _ _)
  | whole v1 z h1 h2 hz hl =>
    obtain ⟨o, o1, o2⟩ := Rle.C01_rle_roundtrip _ hne
    rw [hz] at o1
    injection o1 with o1
    subst o1
    have hr : readOld 2 v1 (voxelCount m).toNat ((le32 z.length ++ z) ++ t) = .ok (contents w) t := by
      unfold readOld
      rw [if_neg (by omega), List.append_assoc]
      refine bind_eq (readInt_le32 (by omega) _) ?_
      refine bind_eq (throwIf_ok (by simp) _) ?_
      have e3 : ((z.length : Int)).toNat = z.length := by omega
      rw [e3]
      refine bind_eq (readBytes_append _ _) ?_
      rw [if_pos (by omega)]
      exact orUb_ok o2 _
    obtain ⟨w', e1, e2⟩ := loadOld_ok h hc hr
    refine ⟨w', loadData_prep h hc _ _ _ ?_, e2⟩
    rw [if_pos (by omega)]
    exact bind_eq e1 (pure_ok _ _)
  | blocks z h3 hz =>
    obtain ⟨f, _, hp⟩ := fits h (addressable_of_count h hc)
    obtain ⟨w', e1, e2⟩ := loadBlocks_ok hp (savedBlock w) z (savedBlock_length w) f t (grid w.sizes)
      (new w.sizes true) rfl (nodup_grid _) grid_in hz
    refine ⟨w', loadData_prep h hc _ _ _ ?_, e2⟩
    rw [if_neg (by omega), if_neg (by omega)]
    refine bind_eq (orUb_ok (three_ok h3) _) ?_
    exact bind_eq e1 (pure_ok _ _)

/-! ## load -/

/-- What `load` returns for the data `w'`. -/
def finished (w w' : WDA) : WDA := { w' with filled := w.filled, maxEntry := w.maxEntry }

theorem load_ok (h : Sound sub robot type limits m w) {cur : Int × Int}
    (hv : Readable cur m.versionMajor m.versionMinor) {d t : List UInt8} {w' : WDA}
    (hd : loadData c m.versionMajor m.versionMinor m.num d = .ok (w', true) (writeString dataEnd ++ t)) :
    load c sub robot type cur (saveHead robot type limits m w ++ d) = .ok (reloaded m, finished w w') t := by
  rw [load]
  refine bind_eq (loadHead_write h hv d) ?_
  refine bind_eq hd ?_
  rw [if_neg (by simp)]
  refine bind_eq (readString_write plain_dataEnd _ _) ?_
  refine bind_eq (throwIf_ok (by simp) _) ?_
  refine (pure_ok _ _).trans ?_
  have e1 : (((w.filled : Int)) % 2 ^ 32).toNat = w.filled := by have := h.counts; omega
  have e2 : (((w.maxEntry : Int)) % 2 ^ 8).toNat = w.maxEntry := by have := h.counts; omega
  rw [e1, e2]
  rfl

theorem load_data_ub (h : Sound sub robot type limits m w) {cur : Int × Int}
    (hv : Readable cur m.versionMajor m.versionMinor) {d : List UInt8}
    (hd : loadData c m.versionMajor m.versionMinor m.num d = .ub) :
    load c sub robot type cur (saveHead robot type limits m w ++ d) = .ub := by
  rw [load]
  refine bind_eq (loadHead_write h hv d) ?_
  exact bind_ub hd

theorem load_missed (h : Sound sub robot type limits m w) {cur : Int × Int}
    (hv : Readable cur m.versionMajor m.versionMinor) {d u : List UInt8} {w' : WDA}
    (hd : loadData c m.versionMajor m.versionMinor m.num d = .ok (w', true) (u ++ writeString dataEnd))
    (h1 : 0 < u.length) (h2 : u.length ≤ 10) :
    load c sub robot type cur (saveHead robot type limits m w ++ d) = .throw ∨
    load c sub robot type cur (saveHead robot type limits m w ++ d) = .ub := by
  rw [load]
  cases g : readString dataStart (u ++ writeString dataEnd) with
  | ok x r' =>
    left
    refine bind_eq (loadHead_write h hv d) ?_
    refine bind_eq hd ?_
    rw [if_neg (by simp)]
    refine bind_eq g ?_
    refine bind_throw ?_
    unfold throwIf
    rw [if_pos (by simpa using end_missed h1 h2 g)]
  | throw =>
    left
    refine bind_eq (loadHead_write h hv d) ?_
    refine bind_eq hd ?_
    rw [if_neg (by simp)]
    exact bind_throw g
  | ub =>
    right
    refine bind_eq (loadHead_write h hv d) ?_
    refine bind_eq hd ?_
    rw [if_neg (by simp)]
    exact bind_ub g

end

end Simox.Wsf
