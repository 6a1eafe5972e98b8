import Verif.Wsf.CutLemmas
import Verif.Wsf.PairLemmas

/-!
# C64, C65: workspace files
-/

namespace Simox.Wsf

open Workspace Spec
open Workspace.Spec (InRange Fits)

/-! ## Reading back single values -/

/-- **C64** (values): numbers and strings written to a file are read back, and exactly their bytes are
consumed. An empty string is not read back: the variable keeps its value. -/
theorem C64_values (t : List UInt8) :
    (∀ v, IsInt v → readInt (writeInt v ++ t) = .ok v t) ∧
    (∀ f, readFloat (writeFloat f ++ t) = .ok f t) ∧
    (∀ s res, Plain s → readString res (writeString s ++ t) = .ok s t) ∧
    (∀ res, readString res (writeString [] ++ t) = .ok res t) :=
  ⟨fun _ h => readInt_write h t, fun f => readFloat_write f t, fun _ res h => readString_write h res t,
    fun res => readString_empty res t⟩

/-! ## Round trip -/

/-- The members after saving and loading: only the base node differs, if there was none. -/
theorem C64_members (m : Members) : reloaded m = { m with base := some (m.base.getD m.tcp) } ∧
    (m.base ≠ none → reloaded m = m) := by
  refine ⟨rfl, ?_⟩
  intro h
  cases hb : m.base with
  | none => exact absurd hb h
  | some b =>
    unfold reloaded
    cases m
    simp only at hb
    subst hb
    rfl

/-- **C64** (round trip): what `save` writes (versions with bzip2 data), `load` reads: every member, the
counters and every voxel entry, whatever the sizes and the contents, unless a multiple of 5000 falls into
the last bytes of the compressed data. The minimal valid entry and the overflow flag are not saved. -/
theorem C64_round_trip (c : Codec) (sub : F → F → F) (robot : Robot) (type : Str) (limits : List (F × F))
    (m : Members) (w : WDA) (n : Nat) (cur : Int × Int)
    (h : Sound sub robot type limits m w) (hc : voxelCount m < 2 ^ 31)
    (hv : m.versionMajor = 2 ∧ 5 ≤ m.versionMinor ∧ m.versionMinor ≤ 9)
    (hS : Stream c (contents w) n) (hm : ¬ HasMultiple n (c.enc (contents w)).length) :
    ∃ w', load c sub robot type cur (save c robot type limits m w) =
        .ok ({ m with base := some (m.base.getD m.tcp) }, w') [] ∧
      w'.sizes = w.sizes ∧ w'.filled = w.filled ∧ w'.maxEntry = w.maxEntry ∧
      (∀ u, InRange w.sizes u → get w' u = get w u) ∧ w'.minValid = 1 ∧ w'.adjust = true := by
  obtain ⟨v0, v1, v2⟩ := hv
  have hR : Readable cur m.versionMajor m.versionMinor := by
    refine ⟨?_, Or.inl (by omega)⟩
    unfold versionBad
    simp only [decide_eq_false_iff_not]
    omega
  obtain ⟨w', r, e1, e2, e3, _⟩ := loadData_bz (c := c) h hc (v0 := m.versionMajor) (v1 := m.versionMinor)
    (Or.inr ⟨v0, v1⟩) hS (t := writeString dataEnd) (by decide)
  have hr := e3 hm
  subst hr
  obtain ⟨f, _, _⟩ := fits h (addressable_of_count h hc)
  obtain ⟨s1, s2⟩ := filled_saved f h.bytes (w0 := new w.sizes true) rfl e2
  refine ⟨finished w w', ?_, s1, rfl, rfl, ?_, e2.1.minValid, e2.1.adjust⟩
  · have := load_ok (t := []) h hR (d := saveData c w ++ writeString dataEnd) (by
      rw [List.append_nil]; exact e1)
    unfold save
    rw [List.append_assoc]
    exact this
  · intro u hu
    exact s2 u hu

/-- **C64** (boundary): if a multiple of 5000 (the size of the read buffer) falls strictly into the last
bytes of the compressed data, the file that was just saved cannot be loaded. -/
theorem C64_boundary (c : Codec) (sub : F → F → F) (robot : Robot) (type : Str) (limits : List (F × F))
    (m : Members) (w : WDA) (n : Nat) (cur : Int × Int)
    (h : Sound sub robot type limits m w) (hc : voxelCount m < 2 ^ 31)
    (hv : m.versionMajor = 2 ∧ 5 ≤ m.versionMinor ∧ m.versionMinor ≤ 9)
    (hS : Stream c (contents w) n) (hm : HasMultiple (n + 1) (c.enc (contents w)).length) :
    load c sub robot type cur (save c robot type limits m w) = .throw ∨
    load c sub robot type cur (save c robot type limits m w) = .ub := by
  obtain ⟨v0, v1, v2⟩ := hv
  have hR : Readable cur m.versionMajor m.versionMinor := by
    refine ⟨?_, Or.inl (by omega)⟩
    unfold versionBad
    simp only [decide_eq_false_iff_not]
    omega
  obtain ⟨w', r, e1, _, _, e4⟩ := loadData_bz (c := c) h hc (v0 := m.versionMajor) (v1 := m.versionMinor)
    (Or.inr ⟨v0, v1⟩) hS (t := writeString dataEnd) (by decide)
  obtain ⟨u, rfl, u1, u2⟩ := e4 hm
  have := load_missed h hR e1 u1 u2
  unfold save
  rw [List.append_assoc]
  exact this

/-- **C64** (incomplete files): a file that ends within the compressed data (before everything is
determined) is loaded without an exception: the first blocks have their entries, all others are zero, and
the counters are zero. -/
theorem C64_cut_silent (c : Codec) (sub : F → F → F) (robot : Robot) (type : Str) (limits : List (F × F))
    (m : Members) (w : WDA) (n K : Nat) (cur : Int × Int)
    (h : Sound sub robot type limits m w) (hc : voxelCount m < 2 ^ 31)
    (hv : m.versionMajor = 2 ∧ 5 ≤ m.versionMinor ∧ m.versionMinor ≤ 9)
    (hS : Stream c (contents w) n) (hK : K < n) :
    ∃ w' r qs, load c sub robot type cur
        ((save c robot type limits m w).take ((saveHead robot type limits m w).length + K)) =
          .ok ({ m with base := some (m.base.getD m.tcp) }, w') r ∧
      w'.sizes = w.sizes ∧ w'.filled = 0 ∧ w'.maxEntry = 0 ∧ qs <+: grid w.sizes ∧
      (∀ u, InRange w.sizes u → (u.a, u.b, u.c) ∈ qs → get w' u = get w u) ∧
      (∀ u, InRange w.sizes u → (u.a, u.b, u.c) ∉ qs → get w' u = some 0) := by
  obtain ⟨v0, v1, v2⟩ := hv
  have hR : Readable cur m.versionMajor m.versionMinor := by
    refine ⟨?_, Or.inl (by omega)⟩
    unfold versionBad
    simp only [decide_eq_false_iff_not]
    omega
  obtain ⟨f, _, _⟩ := fits h (addressable_of_count h hc)
  obtain ⟨w', r, qs, e1, e2, e3⟩ := load_cut (cur := cur) h hc hR (Or.inr ⟨v0, v1⟩) hS hK
  have hlt := hS.lt
  have es : w'.sizes = w.sizes := e3.1.sizes
  refine ⟨w', r, qs, ?_, es, e3.2.2.1, e3.2.1, e2, ?_, ?_⟩
  · unfold save
    rw [List.append_assoc, List.take_length_add_append,
      List.take_append_of_le_length (show K ≤ (saveData c w).length from by
        show K ≤ (c.enc (contents w)).length; omega)]
    exact e1
  · intro u hu hq
    rw [get_eq (by rw [es]; exact f) (by rw [es]; exact hu), get_eq f hu, e3.2.2.2 u hu]
    rw [if_pos (show posOf u ∈ qs from hq)]
    exact congrArg some (savedBlock_val f h.bytes hu)
  · intro u hu hq
    rw [get_eq (by rw [es]; exact f) (by rw [es]; exact hu), e3.2.2.2 u hu]
    rw [if_neg (show ¬ posOf u ∈ qs from hq)]
    rfl

/-! ## Older versions -/

/-- **C64** (older formats): files of the versions 1.1 to 2.4 are read. -/
theorem C64_old_formats (c : Codec) (sub : F → F → F) (robot : Robot) (type : Str) (limits : List (F × F))
    (m : Members) (w : WDA) (d : List UInt8) (cur : Int × Int)
    (h : Sound sub robot type limits m w) (hc : voxelCount m < 2 ^ 31)
    (hv : (m.versionMajor, m.versionMinor) ∈ versions)
    (hd : OldData w m.versionMajor m.versionMinor d) :
    ∃ w', load c sub robot type cur (saveHead robot type limits m w ++ d ++ writeString dataEnd) =
        .ok ({ m with base := some (m.base.getD m.tcp) }, w') [] ∧
      w'.sizes = w.sizes ∧ w'.filled = w.filled ∧ w'.maxEntry = w.maxEntry ∧
      (∀ u, InRange w.sizes u → get w' u = get w u) := by
  have hR : Readable cur m.versionMajor m.versionMinor := by
    refine ⟨versionBad_known cur hv, ?_⟩
    generalize m.versionMajor = v0 at *
    generalize m.versionMinor = v1 at *
    cases hd <;> omega
  obtain ⟨w', e1, e2⟩ := loadData_old (c := c) h hc hd (writeString dataEnd)
  obtain ⟨f, _, _⟩ := fits h (addressable_of_count h hc)
  obtain ⟨s1, s2⟩ := filled_saved f h.bytes (w0 := new w.sizes true) rfl e2
  refine ⟨finished w w', ?_, s1, rfl, rfl, fun u hu => s2 u hu⟩
  have := load_ok (t := []) h hR (d := d ++ writeString dataEnd) (by rw [List.append_nil]; exact e1)
  rw [List.append_assoc]
  exact this

/-- **C64** (refused files): a saved file is refused with an exception if the type is neither known nor that
of the representation, if its version is unknown, or if the robot has another type, has not the node set,
has it with another number of nodes, or has not the tcp. -/
theorem C64_refused (c : Codec) (sub sub' : F → F → F) (robot robot' : Robot) (type type' : Str)
    (limits : List (F × F)) (m : Members) (w : WDA) (cur : Int × Int) (d : List UInt8)
    (h : Sound sub robot type limits m w)
    (hr : (type ∉ knownTypes ∧ type ≠ type') ∨
      (1 ≤ m.versionMajor ∧ (m.versionMajor, m.versionMinor) ∉ cur :: versions) ∨
      robot'.type ≠ robot.type ∨ robot'.nodeSet m.nodeSet = none ∨
      (m.versionMajor = 2 ∧ (robot'.hasNode m.tcp = false ∨
        ∃ l, robot'.nodeSet m.nodeSet = some l ∧ l.length ≠ limits.length))) :
    load c sub' robot' type' cur (saveHead robot type limits m w ++ d) = .throw := by
  rw [load]
  refine bind_throw (loadHead_refused h d ?_)
  rcases hr with ⟨g1, g2⟩ | ⟨g1, g2⟩ | g | g | ⟨g1, g2 | g2⟩
  · left; exact typeOk_unknown g1 g2
  · right; left; exact versionBad_unknown g1 g2
  · right; right; left; exact g
  · right; right; right; left; exact g
  · right; right; right; right; exact ⟨by omega, Or.inr g2⟩
  · right; right; right; right; exact ⟨by omega, Or.inl g2⟩

/-- The first bytes of a bzip2 stream as an `int`. -/
theorem magic_int {c : Codec} {x : List UInt8} {n : Nat} (hS : Stream c x n) (t : List UInt8) :
    ∃ r, c.enc x ++ t = [0x42, 0x5a, 0x68, 0x39] ++ r ∧
      readInt (c.enc x ++ t) = .ok 963140162 r ∧ r.length + 4 = (c.enc x).length + t.length := by
  have e := List.take_append_drop 4 (c.enc x)
  rw [hS.magic] at e
  refine ⟨(c.enc x).drop 4 ++ t, by rw [← List.append_assoc, e], ?_, ?_⟩
  · rw [← e, List.append_assoc]
    have e2 : ([0x42, 0x5a, 0x68, 0x39] : List UInt8) = le32 963140162 := by decide
    rw [e2]
    exact readInt_le32 (by omega) _
  · have := congrArg List.length e
    simp only [List.length_append, List.length_cons, List.length_nil] at this ⊢
    omega

/-- **C64** (version kept): a representation that was loaded from a file of the versions 1.3 to 2.4 keeps that
version. `save` writes it together with data in the current format, so that the file cannot be read: the
first bytes of the compressed data are taken for a size. -/
theorem C64_old_version_saved (c : Codec) (sub : F → F → F) (robot : Robot) (type : Str)
    (limits : List (F × F)) (m : Members) (w : WDA) (n : Nat) (cur : Int × Int)
    (h : Sound sub robot type limits m w) (hc : voxelCount m < 2 ^ 31)
    (hold : (m.versionMajor = 1 ∧ m.versionMinor = 3) ∨
      (m.versionMajor = 2 ∧ 0 ≤ m.versionMinor ∧ m.versionMinor ≤ 4))
    (hS : Stream c (contents w) n) (hlen : (c.enc (contents w)).length < 963140000)
    (hrot : m.num 3 * m.num 4 * m.num 5 < 321000000) :
    load c sub robot type cur (save c robot type limits m w) = .ub := by
  have hR : Readable cur m.versionMajor m.versionMinor := by
    refine ⟨?_, by omega⟩
    unfold versionBad
    simp only [decide_eq_false_iff_not]
    omega
  have ha := addressable_of_count h hc
  obtain ⟨f, er, hp⟩ := fits h ha
  unfold save
  rw [List.append_assoc]
  refine load_data_ub h hR ?_
  show loadData c m.versionMajor m.versionMinor m.num (c.enc (contents w) ++ writeString dataEnd) = .ub
  obtain ⟨r, _, hi, hl⟩ := magic_int hS (writeString dataEnd)
  have hel : (writeString dataEnd).length = 12 := rfl
  refine loadData_prep h hc _ _ _ ?_
  by_cases g : m.versionMajor ≤ 1 ∨ (m.versionMajor = 2 ∧ m.versionMinor ≤ 3)
  · rw [if_pos g]
    refine bind_ub ?_
    unfold loadOld
    refine bind_ub ?_
    unfold readOld
    rw [if_neg (by omega)]
    refine bind_eq hi ?_
    refine bind_eq (throwIf_ok (by decide) _) ?_
    refine bind_ub ?_
    unfold readBytes
    rw [if_neg (by
      have : (963140162 : Int).toNat = 963140162 := rfl
      rw [this]; omega)]
  · rw [if_neg g, if_neg (by omega)]
    refine bind_eq (orUb_ok (three_ok (by omega)) _) ?_
    refine bind_ub ?_
    have hg : grid w.sizes ≠ [] := by
      intro e
      have h1 := congrArg List.length e
      rw [grid_length, ← sizes_tr h] at h1
      have := Int.mul_pos (Int.mul_pos (h.num 0).1 (h.num 1).1) (h.num 2).1
      simp only [List.length_nil] at h1
      omega
    cases e : grid w.sizes with
    | nil => exact absurd e hg
    | cons p ps =>
      rw [loadBlocks]
      refine bind_eq hi ?_
      refine bind_ub ?_
      unfold ubIf
      rw [if_pos (by simp only [decide_eq_true_eq]; omega)]

/-- **C64** (size): a grid of 2³¹ or more voxels is saved, but computing its size in `load` overflows. -/
theorem C64_size_overflow (c : Codec) (sub : F → F → F) (robot : Robot) (type : Str) (limits : List (F × F))
    (m : Members) (w : WDA) (cur : Int × Int) (h : Sound sub robot type limits m w)
    (hv : m.versionMajor = 2 ∧ 0 ≤ m.versionMinor ∧ m.versionMinor ≤ 9) (hc : 2 ^ 31 ≤ voxelCount m) :
    load c sub robot type cur (save c robot type limits m w) = .ub := by
  have hR : Readable cur m.versionMajor m.versionMinor := by
    refine ⟨?_, Or.inl (by omega)⟩
    unfold versionBad
    simp only [decide_eq_false_iff_not]
    omega
  unfold save
  rw [List.append_assoc]
  refine load_data_ub h hR ?_
  unfold loadData
  rw [size_bad h hc]
  exact bind_ub rfl

/-! ## C65: the old run-length compression -/

/-- **C65** (round trip): what was compressed is restored, and the compressed data is smaller. -/
theorem C65_pairs_round_trip (l z : List UInt8) (h : compressData l = .ok z) :
    uncompressData z = l ∧ z.length < l.length ∧ 2 ∣ z.length :=
  ⟨(compressData_ok h).2.2, (compressData_ok h).2.1, (compressData_ok h).1⟩

/-- **C65** (outcome): compression succeeds if and only if the pairs take less room than the data; otherwise
it throws for data of even length, and writes past the end of its buffer for data of odd length. -/
theorem C65_pairs_outcome (l : List UInt8) (h : l ≠ []) :
    (2 * pairCount l < l.length → ∃ z, compressData l = .ok z) ∧
    (l.length ≤ 2 * pairCount l → 2 ∣ l.length → compressData l = .throw) ∧
    (l.length ≤ 2 * pairCount l → ¬ 2 ∣ l.length → compressData l = .ub) := by
  obtain ⟨h1, h2⟩ := compressData_verdict h
  exact ⟨fun g => h1 (by omega), fun g => (h2 (by omega)).1, fun g => (h2 (by omega)).2⟩

/-! ## Examples -/

example : compressData [7, 7, 7, 7, 7, 2, 2] = .ok [5, 7, 2, 2] ∧ pairCount [7, 7, 7, 7, 7, 2, 2] = 2 := by
  decide
example : compressData [1, 2] = .throw ∧ compressData [1, 2, 3] = .ub ∧ compressData [1] = .ub := by decide

namespace Example

/-- A compression that does not compress: the length, the bytes, ten more bytes. -/
def codec : Codec where
  enc x := [0x42, 0x5a, 0x68, 0x39] ++ (le32 x.length ++ (x ++ List.replicate 10 0))
  decoded p := match readU32 (p.drop 4) with
    | .ok n rest => rest.take n
    | _ => []
  bad _ := false
  ended p := match readU32 (p.drop 4) with
    | .ok n rest => n + 10 = rest.length
    | _ => false

theorem codec_length (x : List UInt8) : (codec.enc x).length = 18 + x.length := by
  show ([0x42, 0x5a, 0x68, 0x39] ++ (le32 x.length ++ (x ++ List.replicate 10 0))).length = _
  simp only [List.length_append, List.length_cons, List.length_nil, le32_length, List.length_replicate]
  omega

theorem readU32_short {s : List UInt8} (h : s.length < 4) : readU32 s = .ub := by
  unfold readU32
  split
  · simp at h; omega
  · rfl

theorem codec_read {x : List UInt8} (hx : x.length < 2 ^ 32) {k : Nat} :
    readU32 (((codec.enc x).take k).drop 4) =
      if 8 ≤ k then .ok x.length ((x ++ List.replicate 10 0).take (k - 8)) else .ub := by
  by_cases hk : 8 ≤ k
  · rw [if_pos hk]
    have e : ((codec.enc x).take k).drop 4 = le32 x.length ++ (x ++ List.replicate 10 0).take (k - 8) := by
      rw [List.drop_take]
      show ((le32 x.length ++ (x ++ List.replicate 10 0))).take (k - 4) = _
      rw [List.take_append, le32_length, List.take_of_length_le (by rw [le32_length]; omega)]
      congr 2
    rw [e, readU32_le32 hx]
  · rw [if_neg hk, readU32_short]
    simp only [List.length_drop, List.length_take]
    omega

theorem codec_decoded {x : List UInt8} (hx : x.length < 2 ^ 32) (k : Nat) :
    codec.decoded ((codec.enc x).take k) = x.take (k - 8) := by
  show (match readU32 (((codec.enc x).take k).drop 4) with
    | .ok n rest => rest.take n
    | _ => []) = _
  rw [codec_read hx]
  by_cases hk : 8 ≤ k
  · rw [if_pos hk]
    show ((x ++ List.replicate 10 0).take (k - 8)).take x.length = _
    rw [List.take_take, Nat.min_comm, ← List.take_take]
    congr 1
    simp
  · rw [if_neg hk]
    have : k - 8 = 0 := by omega
    rw [this]
    rfl

theorem codec_stream {x : List UInt8} (hx : x.length < 2 ^ 32) (hne : x ≠ []) :
    Stream codec x (8 + x.length) := by
  have hl := codec_length x
  have hpos : 0 < x.length := List.length_pos_iff.mpr hne
  refine ⟨by omega, by omega, ?_, ?_, ?_, ?_, fun _ _ => rfl, ?_, rfl⟩
  · intro j k hjk _
    rw [codec_decoded hx, codec_decoded hx]
    exact List.take_prefix_take_left (by omega)
  · rw [codec_decoded hx]
    exact List.take_of_length_le (by omega)
  · have := codec_decoded hx (codec.enc x).length
    rw [List.take_length] at this
    rw [this]
    exact List.take_of_length_le (by omega)
  · intro k hk g
    rw [codec_decoded hx] at g
    have := congrArg List.length g
    rw [List.length_take] at this
    omega
  · intro k hk
    show ((match readU32 (((codec.enc x).take k).drop 4) with
      | .ok n rest => decide (n + 10 = rest.length)
      | _ => false) = true) ↔ _
    rw [codec_read hx]
    by_cases h8 : 8 ≤ k
    · rw [if_pos h8]
      show decide (x.length + 10 = ((x ++ List.replicate 10 0).take (k - 8)).length) = true ↔ _
      simp only [List.length_take, List.length_append, List.length_replicate, decide_eq_true_eq]
      omega
    · rw [if_neg h8]
      simp
      omega

/-- A robot with all nodes and node sets. -/
def robot : Robot := ⟨[82], fun _ => true, fun _ => some [(0, 1)]⟩

/-- A grid with `k` positions and `r` rotations, no base node, one collision model. -/
def mem (k r : Int) (v0 v1 : Int) : Members where
  versionMajor := v0
  versionMinor := v1
  orientation := orientationFor (v0, v1)
  nodeSet := [65]
  tcp := [66]
  base := none
  staticModel := some [67]
  dynamicModel := none
  loops := 3
  collisions := 1
  stepT := 1
  stepR := 1
  num := fun i => if i = 0 then k else if i = 3 then r else 1
  lo := fun _ => 0
  hi := fun _ => 1
  space := fun _ => 1
  achLo := fun _ => 0
  achHi := fun _ => 1

/-- Data with the entries 1, 2, ... at the first position. -/
def dat (k r : Nat) : WDA :=
  { new ⟨k, 1, 1, r, 1, 1⟩ true with
    data := fun p => if p = 0 then some (fun i => (i + 1) % 256) else none, filled := r, maxEntry := r % 256 }

theorem isInt_small {v : Int} (h : 0 ≤ v ∧ v ≤ 9) : IsInt v := ⟨by omega, by omega⟩

theorem sound {k r : Nat} {v0 v1 : Int} (hk : 0 < k ∧ k < 2 ^ 31) (hr : 0 < r ∧ r < 2 ^ 31)
    (hv : IsInt v0 ∧ IsInt v1) :
    Sound (· - ·) robot [87] [(0, 1)] (mem k r v0 v1) (dat k r) where
  fileType := ⟨by decide, by decide, by decide +kernel⟩
  robotType := ⟨by decide, by decide, by decide +kernel⟩
  nodeSet := ⟨show Plain [65] from ⟨by decide, by decide, by decide +kernel⟩, rfl, by decide +kernel⟩
  tcp := ⟨show Plain [66] from ⟨by decide, by decide, by decide +kernel⟩, rfl⟩
  base := by intro b hb; simp [mem] at hb
  staticModel := by
    intro s hs
    simp only [mem, Option.some.injEq] at hs
    subst hs
    exact ⟨⟨by decide, by decide, by decide +kernel⟩, by decide, rfl⟩
  dynamicModel := by intro b hb; simp [mem] at hb
  version := hv
  orientation := rfl
  loops := ⟨show IsInt 3 from isInt_small (by omega), show IsInt 1 from isInt_small (by omega)⟩
  num := by
    intro i
    simp only [mem]
    split
    · omega
    · split <;> omega
  space := fun _ => show (1 : F) = 1 - 0 by decide
  sizes := by simp [mem, dat, new]
  counts := ⟨hr.2, by show r % 256 ≤ 255; omega⟩
  bytes := by
    intro p blk hp i
    simp only [dat] at hp
    split at hp
    · injection hp with hp
      subst hp
      show (i + 1) % 256 ≤ 255
      omega
    · simp at hp

theorem count (k r : Nat) (v0 v1 : Int) : voxelCount (mem k r v0 v1) = (k : Int) * r := by
  simp [voxelCount, mem]

theorem stream {k r : Nat} {v0 v1 : Int} (hk : 0 < k ∧ k < 2 ^ 31) (hr : 0 < r ∧ r < 2 ^ 31)
    (hv : IsInt v0 ∧ IsInt v1) (hc : (k : Int) * r < 2 ^ 31) :
    Stream codec (contents (dat k r)) (8 + ((k : Int) * r).toNat) ∧
      (codec.enc (contents (dat k r))).length = 18 + ((k : Int) * r).toNat := by
  obtain ⟨h1, h2⟩ := contents_length (sound hk hr hv) (by rw [count]; exact hc)
  rw [count] at h1 h2
  have := codec_stream (x := contents (dat k r)) (by omega) (by
    intro g; rw [g] at h1; simp only [List.length_nil] at h1; omega)
  rw [codec_length, ← h1]
  exact ⟨this, rfl⟩

/-- A representation with 2 × 3 entries is restored. -/
example : ∃ w', load codec (· - ·) robot [87] currentVersion
      (save codec robot [87] [(0, 1)] (mem 2 3 2 9) (dat 2 3)) =
        .ok ({ mem 2 3 2 9 with base := some [66] }, w') [] ∧
      get w' ⟨0, 0, 0, 1, 0, 0⟩ = some 2 ∧ w'.filled = 3 := by
  have hv : IsInt 2 ∧ IsInt 9 := ⟨isInt_small (by omega), isInt_small (by omega)⟩
  obtain ⟨s1, s2⟩ := stream (k := 2) (r := 3) (by omega) (by omega) hv (by decide)
  obtain ⟨w', e1, _, e3, _, e5, _⟩ := C64_round_trip codec (· - ·) robot [87] [(0, 1)] (mem 2 3 2 9) (dat 2 3)
    _ currentVersion (sound (k := 2) (r := 3) (by omega) (by omega) hv) (by decide) ⟨rfl, by decide, by decide⟩ s1 (by
      rw [s2]
      rintro ⟨j, h1, h2⟩
      simp only [chunk] at h1 h2
      have e : ((2 : Nat) : Int) * ((3 : Nat) : Int) = 6 := rfl
      rw [e] at h1 h2
      omega)
  refine ⟨w', e1, ?_, e3⟩
  rw [e5 ⟨0, 0, 0, 1, 0, 0⟩ (by decide)]
  decide

/-- With 4990 entries the file is not loaded. -/
example : load codec (· - ·) robot [87] currentVersion
      (save codec robot [87] [(0, 1)] (mem 499 10 2 9) (dat 499 10)) = .throw ∨
    load codec (· - ·) robot [87] currentVersion
      (save codec robot [87] [(0, 1)] (mem 499 10 2 9) (dat 499 10)) = .ub := by
  have hv : IsInt 2 ∧ IsInt 9 := ⟨isInt_small (by omega), isInt_small (by omega)⟩
  obtain ⟨s1, s2⟩ := stream (k := 499) (r := 10) (by omega) (by omega) hv (by decide)
  refine C64_boundary codec (· - ·) robot [87] [(0, 1)] (mem 499 10 2 9) (dat 499 10)
    _ currentVersion (sound (k := 499) (r := 10) (by omega) (by omega) hv) (by decide) ⟨rfl, by decide, by decide⟩ s1 ?_
  rw [s2]
  have e : (((499 : Nat) : Int) * ((10 : Nat) : Int)).toNat = 4990 := rfl
  rw [e]
  exact ⟨1, by simp [chunk], by simp [chunk]⟩

/-- A file cut after 20 bytes of compressed data. -/
example : ∃ w' r qs, load codec (· - ·) robot [87] currentVersion
      ((save codec robot [87] [(0, 1)] (mem 10 3 2 9) (dat 10 3)).take
        ((saveHead robot [87] [(0, 1)] (mem 10 3 2 9) (dat 10 3)).length + 20)) =
        .ok ({ mem 10 3 2 9 with base := some [66] }, w') r ∧
      w'.sizes = (dat 10 3).sizes ∧ w'.filled = 0 ∧ w'.maxEntry = 0 ∧ qs <+: grid (dat 10 3).sizes ∧
      (∀ u, InRange (dat 10 3).sizes u → (u.a, u.b, u.c) ∈ qs → get w' u = get (dat 10 3) u) ∧
      (∀ u, InRange (dat 10 3).sizes u → (u.a, u.b, u.c) ∉ qs → get w' u = some 0) := by
  have hv : IsInt 2 ∧ IsInt 9 := ⟨isInt_small (by omega), isInt_small (by omega)⟩
  obtain ⟨s1, s2⟩ := stream (k := 10) (r := 3) (by omega) (by omega) hv (by decide)
  exact C64_cut_silent codec (· - ·) robot [87] [(0, 1)] (mem 10 3 2 9) (dat 10 3)
    _ 20 currentVersion (sound (k := 10) (r := 3) (by omega) (by omega) hv) (by decide) ⟨rfl, by decide, by decide⟩ s1 (by decide)

/-- A file of version 1.2. -/
example : ∃ w', load codec (· - ·) robot [87] currentVersion
      (saveHead robot [87] [(0, 1)] (mem 2 3 1 2) (dat 2 3) ++ contents (dat 2 3) ++ writeString dataEnd) =
        .ok ({ mem 2 3 1 2 with base := some [66] }, w') [] ∧
      get w' ⟨0, 0, 0, 1, 0, 0⟩ = some 2 := by
  have hv : IsInt 1 ∧ IsInt 2 := ⟨isInt_small (by omega), isInt_small (by omega)⟩
  obtain ⟨w', e1, _, _, _, e5⟩ := C64_old_formats codec (· - ·) robot [87] [(0, 1)] (mem 2 3 1 2) (dat 2 3)
    _ currentVersion (sound (k := 2) (r := 3) (by omega) (by omega) hv) (by decide) (by decide)
    (OldData.plain 2 (by decide) (by decide))
  refine ⟨w', e1, ?_⟩
  rw [e5 ⟨0, 0, 0, 1, 0, 0⟩ (by decide)]
  decide

/-- A file of version 2.4. -/
example : ∃ w' d, OldData (dat 2 3) 2 4 d ∧ load codec (· - ·) robot [87] currentVersion
      (saveHead robot [87] [(0, 1)] (mem 2 3 2 4) (dat 2 3) ++ d ++ writeString dataEnd) =
        .ok ({ mem 2 3 2 4 with base := some [66] }, w') [] := by
  have hv : IsInt 2 ∧ IsInt 4 := ⟨isInt_small (by omega), isInt_small (by omega)⟩
  have hz : ∀ p ∈ grid (dat 2 3).sizes, Rle.compress (savedBlock (dat 2 3) p) =
      .bytes (if p = (0, 0, 0) then [0, 1, 2, 3] else [1, 0, 0, 0]) ∧
      (if p = (0, 0, 0) then [0, 1, 2, 3] else [1, 0, 0, 0] : List UInt8).length < 2 ^ 31 := by
    decide +kernel
  obtain ⟨w', e1, _⟩ := C64_old_formats codec (· - ·) robot [87] [(0, 1)] (mem 2 3 2 4) (dat 2 3)
    _ currentVersion (sound (k := 2) (r := 3) (by omega) (by omega) hv) (by decide) (by decide)
    (OldData.blocks _ (by decide) hz)
  exact ⟨w', _, OldData.blocks _ (by decide) hz, e1⟩

/-- A representation loaded from version 2.3 and saved. -/
example : load codec (· - ·) robot [87] currentVersion
      (save codec robot [87] [(0, 1)] (mem 2 3 2 3) (dat 2 3)) = .ub := by
  have hv : IsInt 2 ∧ IsInt 3 := ⟨isInt_small (by omega), isInt_small (by omega)⟩
  obtain ⟨s1, s2⟩ := stream (k := 2) (r := 3) (by omega) (by omega) hv (by decide)
  exact C64_old_version_saved codec (· - ·) robot [87] [(0, 1)] (mem 2 3 2 3) (dat 2 3)
    _ currentVersion (sound (k := 2) (r := 3) (by omega) (by omega) hv) (by decide)
    (Or.inr ⟨rfl, by decide, by decide⟩) s1 (by rw [s2]; decide) (by decide)

/-- A file of another robot, and one of version 2.10. -/
example (d : List UInt8) :
    load codec (· - ·) { robot with type := [83] } [87] currentVersion
      (saveHead robot [87] [(0, 1)] (mem 2 3 2 9) (dat 2 3) ++ d) = .throw ∧
    load codec (· - ·) robot [87] currentVersion
      (saveHead robot [87] [(0, 1)] (mem 2 3 2 10) (dat 2 3) ++ d) = .throw := by
  refine ⟨?_, ?_⟩
  · refine C64_refused codec (· - ·) _ robot _ [87] [87] [(0, 1)] (mem 2 3 2 9) (dat 2 3) currentVersion d
      (sound (k := 2) (r := 3) (by omega) (by omega)
        ⟨isInt_small (by omega), isInt_small (by omega)⟩) ?_
    right; right; left; decide
  · refine C64_refused codec (· - ·) _ robot _ [87] [87] [(0, 1)] (mem 2 3 2 10) (dat 2 3) currentVersion d
      (sound (k := 2) (r := 3) (by omega) (by omega) ⟨isInt_small (by omega), by decide +kernel, by decide +kernel⟩) ?_
    right; left; decide

/-- A large grid. -/
example : load codec (· - ·) robot [87] currentVersion
      (save codec robot [87] [(0, 1)] (mem 100000 100000 2 9) (dat 100000 100000)) = .ub := by
  have hv : IsInt 2 ∧ IsInt 9 := ⟨isInt_small (by omega), isInt_small (by omega)⟩
  have := C64_size_overflow codec (· - ·) robot [87] [(0, 1)] (mem (100000 : Nat) (100000 : Nat) 2 9)
    (dat 100000 100000) currentVersion (sound (k := 100000) (r := 100000) (by omega) (by omega) hv) ⟨rfl, by decide, by decide⟩
    (by rw [count]; decide)
  exact this

end Example

end Simox.Wsf
