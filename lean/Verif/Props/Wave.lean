import Verif.Model.Wave
import Verif.Lemmas.Mem
/-!
# C48: RIFF chunk traversal
-/
namespace PreCore.Wave

/-- A chunk in a file: id, data size, data. -/
def chunk (id : BitVec 32) (data : List Byte) : List Byte := toLE 4 id.toNat ++ toLE 4 data.length ++ data

/-- What `Next` returns, for every chunk anywhere in a buffer: 8 bytes in front of the following chunk. -/
theorem next_position (pre rest : List Byte) (id : BitVec 32) (data : List Byte) (h : data.length < 2 ^ 32) :
    next (pre ++ chunk id data ++ rest) pre.length + 8 = (pre ++ chunk id data).length := by
  unfold next chunk
  have e : pre ++ (toLE 4 id.toNat ++ toLE 4 data.length ++ data) ++ rest =
      (pre ++ toLE 4 id.toNat) ++ (toLE 4 data.length ++ (data ++ rest)) := by simp
  rw [e]
  have hl : pre.length + 4 = (pre ++ toLE 4 id.toNat).length := by simp [toLE_length]
  rw [hl, List.drop_left]
  have h4 : (toLE 4 data.length).length = 4 := toLE_length _ _
  rw [List.take_append_of_le_length (by omega), List.take_of_length_le (by omega), leNat_toLE,
    Nat.mod_eq_of_lt (by omega)]
  simp only [List.length_append, toLE_length]
  omega

/-- C48 fails for every chunk in every buffer: `Next` never lands on the following header. -/
theorem next_violated (pre rest : List Byte) (id : BitVec 32) (data : List Byte) (h : data.length < 2 ^ 32) :
    next (pre ++ chunk id data ++ rest) pre.length ≠ (pre ++ chunk id data).length := by
  have := next_position pre rest id data h
  omega

/-- Stepping with the header length added visits every chunk of a file, in order. -/
def offsets (a : Nat) : List (BitVec 32 × List Byte) → List Nat
  | [] => []
  | c :: cs => a :: offsets (a + (chunk c.1 c.2).length) cs

def walk (buf : List Byte) : Nat → Nat → List Nat
  | 0, _ => []
  | n + 1, a => a :: walk buf n (next buf a + 8)

theorem walk_corrected (pre : List Byte) (cs : List (BitVec 32 × List Byte)) (h : ∀ c ∈ cs, c.2.length < 2 ^ 32) :
    walk (pre ++ cs.flatMap (fun c => chunk c.1 c.2)) cs.length pre.length = offsets pre.length cs := by
  induction cs generalizing pre with
  | nil => rfl
  | cons c cs ih =>
    simp only [walk, offsets, List.flatMap_cons, List.length_cons]
    have e : pre ++ (chunk c.1 c.2 ++ cs.flatMap (fun c => chunk c.1 c.2)) =
        pre ++ chunk c.1 c.2 ++ cs.flatMap (fun c => chunk c.1 c.2) := by simp
    rw [e, next_position _ _ _ _ (h c (by simp)), ih (pre ++ chunk c.1 c.2) (fun x hx => h x (by simp [hx]))]
    simp

example : next (chunk 0x20746d66 [1#8, 2#8] ++ chunk 0x61746164 [3#8]) 0 = 2 := by decide +kernel

/-- `RIFFHeader(fullSize)`: the stored size plus the 8 byte header is the file size. -/
theorem riff_size (fullSize : BitVec 32) (h : 8 ≤ fullSize.toNat) : (riffSize fullSize).toNat + 8 = fullSize.toNat := by
  unfold riffSize
  rw [BitVec.toNat_sub]
  have := fullSize.isLt
  simp
  omega

/-- Byte rate and block alignment of the linear formats (PCM, A-law, mu-law) are those of the WAVE format:
`channels * rate * bits / 8`, modulo the field size. -/
theorem calc_linear (channels : BitVec 16) (rate : BitVec 32) (format : BitVec 16) (h : format = 1 ∨ format = 6 ∨ format = 7) :
    calcData channels rate (bitsPerSample format) =
      (BitVec.ofNat 32 (channels.toNat * rate.toNat * (bitsPerSample format).toNat / 8),
       BitVec.ofNat 16 (channels.toNat * (bitsPerSample format).toNat / 8)) := by
  unfold calcData
  have : ∃ k, (bitsPerSample format).toNat = 8 * k := by
    rcases h with rfl | rfl | rfl
    · exact ⟨2, rfl⟩
    · exact ⟨1, rfl⟩
    · exact ⟨1, rfl⟩
  obtain ⟨k, hk⟩ := this
  simp only [hk]
  rw [Nat.mul_div_cancel_left _ (by omega)]
  congr 2
  · rw [show channels.toNat * rate.toNat * (8 * k) = channels.toNat * rate.toNat * k * 8 by rw [Nat.mul_comm 8 k, ← Nat.mul_assoc]]
    rw [Nat.mul_div_cancel _ (by omega)]
  · rw [show channels.toNat * (8 * k) = channels.toNat * k * 8 by rw [Nat.mul_comm 8 k, ← Nat.mul_assoc]]
    rw [Nat.mul_div_cancel _ (by omega)]

/-- Bits per sample of the published format tags (RFC 2361): PCM 16, MS and IMA ADPCM 4, A-law and mu-law 8, nothing for others. -/
theorem bits_of_format (format : BitVec 16) : (bitsPerSample format).toNat =
    if format.toNat = 0x0001 then 16
    else if format.toNat ∈ [0x0002, 0x0011] then 4
    else if format.toNat ∈ [0x0006, 0x0007] then 8
    else 0 := by
  have h : ∀ k : BitVec 16, format = k ↔ format.toNat = k.toNat := fun k => ⟨fun h => by rw [h], BitVec.eq_of_toNat_eq⟩
  unfold bitsPerSample
  simp only [h 1, h 2, h 0x11, h 6, h 7]
  have e : BitVec.toNat (1 : BitVec 16) = 1 ∧ BitVec.toNat (2 : BitVec 16) = 2 ∧ BitVec.toNat (0x11 : BitVec 16) = 0x11 ∧
      BitVec.toNat (6 : BitVec 16) = 6 ∧ BitVec.toNat (7 : BitVec 16) = 7 := ⟨rfl, rfl, rfl, rfl, rfl⟩
  simp only [e.1, e.2.1, e.2.2.1, e.2.2.2.1, e.2.2.2.2, List.mem_cons, List.not_mem_nil, or_false]
  split
  · rfl
  · split
    · rfl
    · split <;> rfl

/-- For the 4 bit ADPCM formats both come out as 0. -/
theorem calc_adpcm_violated (channels : BitVec 16) (rate : BitVec 32) : calcData channels rate (bitsPerSample 0x11) = (0, 0) := by
  simp [calcData, bitsPerSample]

/-- The chunk ids a WAVE file may contain here, as they appear in the file. -/
def chunkNames : List (List Char) := [['f', 'm', 't', ' '], ['d', 'a', 't', 'a'], ['f', 'a', 'c', 't'], ['s', 'm', 'p', 'l']]

/-- `IsValidWaveChunk` accepts exactly the four ids, for every 32 bit id. -/
theorem valid_chunk_iff (id : BitVec 32) :
    isValidWaveChunk id = true ↔ toLE 4 id.toNat ∈ chunkNames.map (List.map fun c => BitVec.ofNat 8 c.toNat) := by
  have h : ∀ k : BitVec 32, id = k ↔ toLE 4 id.toNat = toLE 4 k.toNat := by
    intro k
    refine ⟨fun h => by rw [h], fun h => ?_⟩
    have := congrArg leNat h
    rw [leNat_toLE, leNat_toLE, Nat.mod_eq_of_lt (by omega), Nat.mod_eq_of_lt (by omega)] at this
    exact BitVec.eq_of_toNat_eq this
  unfold isValidWaveChunk
  rw [decide_eq_true_eq, h 0x20746d66, h 0x61746164, h 0x74636166, h 0x6c706d73]
  rw [show chunkNames.map (List.map fun c => BitVec.ofNat 8 c.toNat) = [toLE 4 (0x20746d66#32).toNat, toLE 4 (0x61746164#32).toNat,
    toLE 4 (0x74636166#32).toNat, toLE 4 (0x6c706d73#32).toNat] by decide]
  simp only [List.mem_cons, List.not_mem_nil, or_false]
  exact Iff.rfl

example : isValidWaveChunk 0x6c706d73 = true ∧ isValidWaveChunk 0x6c706d74 = false := by decide

end PreCore.Wave
