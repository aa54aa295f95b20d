import Verif.Lemmas.Wire

/-! Properties C01–C04: the primitive wire codec. -/

namespace CH.Props
open CH CH.Spec

/-- **C01** Every 64-bit number written by the client as a varint is read back unchanged, consuming exactly the written
bytes whatever follows. -/
theorem C01_uvarint_roundtrip (v : Nat) (hv : v < 2 ^ 64) (rest : Bytes) :
    readUvarint (putUvarint v ++ rest) = .ok v rest :=
  readUvarint_put hv rest

/-- **C01** The written form takes between 1 and 10 bytes, so the encoder's 10-byte scratch buffer suffices. -/
theorem C01_uvarint_length (v : Nat) (hv : v < 2 ^ 64) :
    1 ≤ (putUvarint v).length ∧ (putUvarint v).length ≤ 10 :=
  putUvarint_length hv

/-- **C01** The written form is the little-endian base-128 notation of the number: continuation bytes, one final byte,
no superfluous leading zero digit. -/
theorem C01_uvarint_canonical (v : Nat) :
    ∃ c l, putUvarint v = c ++ [l] ∧ (∀ b ∈ c, isCont b) ∧ ¬ isCont l ∧ base128 (c ++ [l]) = v ∧
      (c ≠ [] → 128 ^ c.length ≤ v) := by
  obtain ⟨c, l, h1, h2, h3, h4, h5⟩ := putUvarint_shape v
  exact ⟨c, l, h1, h2, by simp [isCont]; omega, h4, h5⟩

example : readUvarint (putUvarint (2 ^ 64 - 1) ++ [7, 7]) = .ok (2 ^ 64 - 1) [7, 7] :=
  C01_uvarint_roundtrip _ (by decide) _
example : putUvarint 300 = [0xac, 0x02] := by simp [putUvarint]; decide
example : (putUvarint (2 ^ 64 - 1)).length ≤ 10 := (C01_uvarint_length _ (by decide)).2

/-- **C02** (complete description, partial w.r.t. the English claim because the first branch is a panic.)
On `c` continuation bytes and a final byte `l`, reading panics if there are 11 or more continuation bytes, reports overflow
if there are 10 or the base-128 value does not fit 64 bits, and otherwise returns exactly the base-128 value. -/
theorem C02_uvarint_total_partial (c : Bytes) (l : UInt8) (rest : Bytes) (hc : ∀ b ∈ c, isCont b) (hl : ¬ isCont l) :
    readUvarint (c ++ l :: rest) =
      if c.length ≥ 11 then .panic
      else if c.length = 10 ∨ base128 (c ++ [l]) ≥ 2 ^ 64 then .err .overflow rest
      else .ok (base128 (c ++ [l])) rest := by
  have := uvarintLoop_spec c l rest hc (by simp [isCont] at hl; omega) 0 0 0 rfl (by simp) (by omega)
  simpa [readUvarint] using this

/-- **C02** Without a final byte the reader waits (or, after 11 continuation bytes, panics). -/
theorem C02_uvarint_unfinished_partial (c : Bytes) (hc : ∀ b ∈ c, isCont b) :
    readUvarint c = if c.length ≥ 11 then .panic else .more := by
  have := uvarintLoop_cont c hc 0 0 0 rfl (by omega)
  simpa [readUvarint] using this

/-- **C02** The value returned for arbitrary input bytes is never wrapped: it is the base-128 value of the bytes
consumed, and it fits 64 bits. -/
theorem C02_uvarint_sound (bs rest : Bytes) (v : Nat) (h : readUvarint bs = .ok v rest) :
    ∃ c l, bs = c ++ l :: rest ∧ (∀ b ∈ c, isCont b) ∧ ¬ isCont l ∧ v = base128 (c ++ [l]) ∧ v < 2 ^ 64 := by
  -- split the input at its first non-continuation byte
  have split : ∀ bs : Bytes, (∀ b ∈ bs, isCont b) ∨
      ∃ c l r, bs = c ++ l :: r ∧ (∀ b ∈ c, isCont b) ∧ ¬ isCont l := by
    intro bs
    induction bs with
    | nil => left; simp
    | cons b bs ih =>
      by_cases hb : isCont b
      · rcases ih with h | ⟨c, l, r, h1, h2, h3⟩
        · left; intro d hd; rcases List.mem_cons.mp hd with rfl | h'
          · exact hb
          · exact h d h'
        · right; refine ⟨b :: c, l, r, by simp [h1], ?_, h3⟩
          intro d hd; rcases List.mem_cons.mp hd with rfl | h'
          · exact hb
          · exact h2 d h'
      · right; exact ⟨[], b, bs, by simp, by simp, hb⟩
  rcases split bs with hall | ⟨c, l, r, h1, h2, h3⟩
  · rw [C02_uvarint_unfinished_partial bs hall] at h; split at h <;> simp at h
  · subst h1
    rw [C02_uvarint_total_partial c l r h2 h3] at h
    split at h
    · simp at h
    · split at h
      · simp at h
      · rename_i _ hn
        simp only [Res.ok.injEq] at h
        exact ⟨c, l, by rw [h.2], h2, h3, h.1.symm, by omega⟩

/-- **C02** is violated: a varint with 11 continuation bytes makes the reader panic (shift overflow), whatever follows. -/
theorem C02_uvarint_panic_violated (rest : Bytes) : readUvarint (List.replicate 11 0x80 ++ rest) = .panic := by
  have := uvarint_beyond
  have h := C02_uvarint_unfinished_partial (List.replicate 11 0x80) (by simp [isCont])
  simp only [List.length_replicate, ge_iff_le, Nat.le_refl, if_true] at h
  exact readUvarint_mono.panic h rest

example : readUvarint [0x80, 0x80, 0x80, 0x80, 0x80, 0x80, 0x80, 0x80, 0x80, 0x02, 9] = .err .overflow [9] := by decide
example : readUvarint [0x80, 0x80, 0x01] = .ok 16384 [] := by decide

/-- **C03** A byte string written with its length is read back byte for byte. -/
theorem C03_bytes_roundtrip (chunk : Nat) (hc : chunk < 2 ^ 63) (b rest : Bytes) (hb : b.length < 2 ^ 63) :
    readBytesLP chunk (putBytes b ++ rest) = .ok b rest := readBytesLP_put chunk b rest hc hb

/-- **C03** A text written by the client is read back as the same text. -/
theorem C03_string_roundtrip (s : String) (rest : Bytes) (hs : (strBytes s).length < 2 ^ 63) :
    readString (putString s ++ rest) = .ok s rest := readString_put s rest hs

/-- **C03** Reading a text from arbitrary bytes never alters it: what is returned encodes to exactly the payload bytes on
the wire, and a payload that is the encoding of no text is an error. -/
theorem C03_string_faithful (b rest : Bytes) (hb : b.length < 2 ^ 63) :
    (∀ s, readString (putBytes b ++ rest) = .ok s rest ↔ strBytes s = b) ∧
    ((∀ s, strBytes s ≠ b) → readString (putBytes b ++ rest) = .err .utf8 rest) := by
  have e : readString (putBytes b ++ rest) =
      match strOfBytes? b with
      | some s => .ok s rest
      | none => .err .utf8 rest := by
    rw [readString, putBytes, List.append_assoc, bind_ok (readUvarint_put (by omega) _), bind_ok (alloc_ok hb _),
      bind_ok (readN_append _ _)]
    cases strOfBytes? b <;> rfl
  rw [e]
  constructor
  · intro s
    constructor
    · intro h
      cases hs : strOfBytes? b with
      | none => simp [hs] at h
      | some s' => simp [hs] at h; subst h; exact strOfBytes_some hs
    · intro h; subst h; simp [strOfBytes_strBytes]
  · intro h
    cases hs : strOfBytes? b with
    | none => rfl
    | some s' => exact absurd (strOfBytes_some hs) (h s')

/-- **C03** Skipping a string consumes exactly what reading the string would consume, for short and for long strings. -/
theorem C03_skip_string (b rest : Bytes) (hb : b.length < 2 ^ 63) :
    skipString (putBytes b ++ rest) = .ok () rest ∧ readBytesLP 0 (putBytes b ++ rest) = .ok b rest :=
  ⟨skipString_put b rest hb, readBytesLP_put 0 b rest (by decide) hb⟩

example : readString (putString "naïve ☃" ++ [1, 2]) = .ok "naïve ☃" [1, 2] :=
  C03_string_roundtrip _ _ (by decide)
example : skipString (putBytes (List.replicate 5000 65) ++ [3]) = .ok () [3] :=
  (C03_skip_string _ _ (by rw [List.length_replicate]; decide)).1
example : readString (putBytes [0xff] ++ [3]) = .err .utf8 [3] := by
  have : putBytes [0xff] = [1, 0xff] := by simp [putBytes, putUvarint]
  rw [this]; decide

/-- **C04** An unsigned number (or float bit pattern) of `w` bytes is written on exactly `w` bytes, least significant byte
first, and read back unchanged. -/
theorem C04_unsigned_roundtrip (w v : Nat) (hv : v < 2 ^ (8 * w)) (rest : Bytes) :
    (putLE w v).length = w ∧ base256 (putLE w v) = v ∧ readLE w (putLE w v ++ rest) = .ok v rest := by
  rw [← pow256] at hv
  exact ⟨putLE_length w v, by rw [← getLE_eq_base256, getLE_putLE_lt hv], readLE_put hv rest⟩

/-- **C04** Every byte string of `w` bytes is the written form of the number read from it. -/
theorem C04_unsigned_surjective (b rest : Bytes) :
    ∃ v, v < 2 ^ (8 * b.length) ∧ readLE b.length (b ++ rest) = .ok v rest ∧ putLE b.length v = b := by
  refine ⟨getLE b, by rw [← pow256]; exact getLE_lt b, ?_, putLE_getLE b⟩
  rw [readLE, bind_ok (readN_append _ _)]; rfl

/-- **C04** A signed number of `w` bytes is read back unchanged. -/
theorem C04_signed_roundtrip (w : Nat) (hw : 0 < w) (v : Int) (h1 : -(2 ^ (8 * w - 1) : Nat) ≤ v)
    (h2 : v < (2 ^ (8 * w - 1) : Nat)) (rest : Bytes) :
    (readLE w >>= fun n => Reader.pure (toSigned w n)) (putLE w (ofSigned w v) ++ rest) = .ok v rest := by
  rw [bind_ok (readLE_put (ofSigned_lt w v) rest), toSigned_ofSigned hw h1 h2]; rfl

/-- **C04** Booleans are written as one byte, 0 or 1, and read back unchanged; any non-zero byte reads as true. -/
theorem C04_bool_roundtrip (b : Bool) (x : UInt8) (rest : Bytes) :
    readBool (putBool b ++ rest) = .ok b rest ∧ readBool (x :: rest) = .ok (decide (x.toNat ≠ 0)) rest := by
  refine ⟨readBool_put b rest, ?_⟩
  show readBool ([x] ++ rest) = _
  rw [readBool, bind_ok (readN_append' (n := 1) [x] rest rfl)]
  simp only [getLE, Nat.mul_zero, Nat.add_zero, rpure_run, Res.ok.injEq, and_true]
  by_cases h : x.toNat = 0 <;> simp [h]

example : putLE 4 0x01020304 = [4, 3, 2, 1] := by decide
example : (readLE 16 >>= fun n => Reader.pure (toSigned 16 n)) (putLE 16 (ofSigned 16 (-1)) ++ [5]) = .ok (-1) [5] :=
  C04_signed_roundtrip 16 (by decide) (-1) (by decide) (by decide) [5]

end CH.Props
