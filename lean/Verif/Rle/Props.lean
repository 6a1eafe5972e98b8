import Verif.Rle.Lemmas

/-!
# Properties C01, C02, C03 of the RLE coder

Stated directly on `compress` / `uncompress` (the models of `RLE_Compress`, `RLE_Uncompress`).
`uncompress` returns `none` exactly when the C++ code reads outside the compressed buffer.
-/

namespace Simox.Rle

/-- **C01.** For every non-empty buffer, `RLE_Compress` terminates with some bytes `out`, and
`RLE_Uncompress` on these bytes writes exactly the original buffer. -/
theorem C01_rle_roundtrip (inp : List UInt8) (h : inp ≠ []) :
    ∃ out, compress inp = .bytes out ∧ uncompress out = some inp := by
  obtain ⟨out, h1, h2, _⟩ := compress_spec inp h
  exact ⟨_, h1, h2⟩

/-- **C01** (empty buffer): nothing is produced and nothing comes back. -/
theorem C01_rle_roundtrip_empty : compress [] = .bytes [] ∧ uncompress [] = some [] := by
  constructor <;> rfl

/-- **C01** corollary: distinct buffers have distinct compressed forms. -/
theorem C01_rle_injective (a b : List UInt8) (h : compress a = compress b) : a = b := by
  by_cases ha : a = []
  · by_cases hb : b = []
    · rw [ha, hb]
    · obtain ⟨o, h1, _⟩ := compress_spec b hb
      rw [ha, h1] at h; simp [compress] at h
  · by_cases hb : b = []
    · obtain ⟨o, h1, _⟩ := compress_spec a ha
      rw [hb, h1] at h; simp [compress] at h
    · obtain ⟨o, h1, h2⟩ := C01_rle_roundtrip a ha
      obtain ⟨o', h3, h4⟩ := C01_rle_roundtrip b hb
      rw [h1, h3] at h
      injection h with h
      subst h
      rw [h2] at h4
      injection h4

/-- **C02.** The number of bytes `RLE_Compress` writes is at most the documented
`(257/256) * insize + 1`. -/
theorem C02_rle_size_bound (inp out : List UInt8) (hc : compress inp = .bytes out) :
    out.length ≤ inp.length + inp.length / 256 + 1 := by
  by_cases h : inp = []
  · subst h; simp [compress] at hc; subst hc; simp
  · obtain ⟨o, h1, _, h3⟩ := compress_spec inp h
    rw [h1] at hc
    injection hc with hc
    subst hc
    have := marker_rare inp
    simp only [List.length_cons]
    omega

/-- **C02**, lower bound: a non-empty buffer always needs at least two output bytes. -/
theorem C02_rle_min_size (inp out : List UInt8) (h : inp ≠ []) (hc : compress inp = .bytes out) :
    2 ≤ out.length := by
  obtain ⟨o, h1, h2, _⟩ := compress_spec inp h
  rw [h1] at hc
  injection hc with hc
  subst hc
  cases o with
  | nil => simp [uncompressLoop] at h2
  | cons x o => simp

/-- **C03.** On every buffer produced by `RLE_Compress`, the decoder never reads outside the
buffer. -/
theorem C03_rle_decoder_in_bounds (inp out : List UInt8) (hc : compress inp = .bytes out) :
    uncompress out ≠ none := by
  by_cases h : inp = []
  · subst h; simp [compress] at hc; subst hc; simp [uncompress]
  · obtain ⟨o, h1, h2⟩ := C01_rle_roundtrip inp h
    rw [h1] at hc; injection hc with hc; subst hc; rw [h2]; simp

/-- **C03**, the other half: a one-byte buffer makes the decoder read out of bounds. -/
theorem C03_rle_single_byte_overrun (b : UInt8) : uncompress [b] = none := by
  simp [uncompress, uncompressLoop]

/-- **C03**: no compressed buffer has just one byte, so the overrun above needs a corrupt
buffer. -/
theorem C03_rle_never_single_byte (inp : List UInt8) (b : UInt8) : compress inp ≠ .bytes [b] := by
  intro hc
  exact C03_rle_decoder_in_bounds inp [b] hc (C03_rle_single_byte_overrun b)

/-- The bound of C02 is attained: every byte value once needs 256 + 1 + 1 output bytes. -/
example : (match compress ((List.range 256).map UInt8.ofNat) with
    | .bytes l => l.length | .outOfFuel => 0) = 256 + 256 / 256 + 1 := by decide +kernel

/-! Non-vacuity: a run of five, the marker byte (1) being absent from the input. -/
example : compress [0, 0, 0, 0, 0, 7] = .bytes [1, 1, 4, 0, 7] := by decide +kernel
example : uncompress [1, 1, 4, 0, 7] = some [0, 0, 0, 0, 0, 7] := by
  simp [uncompress, uncompressLoop]
example : ([0, 0, 0, 0, 0, 7] : List UInt8) ≠ [] := by decide

end Simox.Rle
