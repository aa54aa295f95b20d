import Verif.Lemmas.Block
import Verif.Spec.Protocol

namespace CH

/-! Compressed framing. -/

theorem Mono.wait : Mono (Reader.wait : Reader α) := ⟨by simp [Reader.wait], by simp [Reader.wait], by simp [Reader.wait]⟩
theorem Fwd.wait : Fwd (Reader.wait : Reader α) := ⟨by simp [Reader.wait], by simp [Reader.wait]⟩

theorem decompressBuffer_mono (z : Codec) : Mono (decompressBuffer z) := by
  refine (readLE_mono 8).bind fun lo => (readLE_mono 8).bind fun hi => (readLE_mono 1).bind fun m => ?_
  refine Mono.ite (Mono.fail _) ((readLE_mono 4).bind fun c => (readLE_mono 4).bind fun o => Mono.ite (Mono.fail _) ?_)
  refine (readN_mono _).bind fun body => Mono.ite (Mono.fail _) (Mono.ite Mono.panic' ?_)
  cases z.decompress body o with
  | none => exact Mono.fail _
  | some d => exact Mono.pure _

theorem decompressBuffer_fwd (z : Codec) : Fwd (decompressBuffer z) := by
  refine (readLE_fwd 8).bind fun lo => (readLE_fwd 8).bind fun hi => (readLE_fwd 1).bind fun m => ?_
  refine Fwd.ite (Fwd.fail _) ((readLE_fwd 4).bind fun c => (readLE_fwd 4).bind fun o => Fwd.ite (Fwd.fail _) ?_)
  refine (readN_fwd _).bind fun body => Fwd.ite (Fwd.fail _) (Fwd.ite Fwd.panic' ?_)
  cases z.decompress body o with
  | none => exact Fwd.fail _
  | some d => exact Fwd.pure _

theorem refill_mono (z : Codec) (p : Reader α) (buf : Bytes) : Mono (refill z p buf) := by
  rw [refill]
  cases p buf with
  | ok a r => exact Mono.pure _
  | err e r => exact Mono.fail _
  | panic => exact Mono.panic'
  | more => exact (decompressBuffer_mono z).bind fun d => Mono.ite Mono.wait (Mono.pure _)

theorem refill_fwd (z : Codec) (p : Reader α) (buf : Bytes) : Fwd (refill z p buf) := by
  rw [refill]
  cases p buf with
  | ok a r => exact Fwd.pure _
  | err e r => exact Fwd.fail _
  | panic => exact Fwd.panic'
  | more => exact (decompressBuffer_fwd z).bind fun d => Fwd.ite Fwd.wait (Fwd.pure _)

theorem readCompressed_mono (z : Codec) (p : Reader α) : Mono (readCompressed z p) := Mono.loop (refill_mono z p) _
theorem readCompressed_fwd (z : Codec) (p : Reader α) : Fwd (readCompressed z p) := Fwd.loop (refill_fwd z p) _

theorem blockLoad_mono (known : Tz → Bool) (z : Codec) (tz : Tz) (c : Bool) : Mono (blockLoad known z tz c) := by
  cases c
  · exact rawLoad_mono known tz
  · exact readCompressed_mono z _
theorem blockLoad_fwd (known : Tz → Bool) (z : Codec) (tz : Tz) (c : Bool) : Fwd (blockLoad known z tz c) := by
  cases c
  · exact rawLoad_fwd known tz
  · exact readCompressed_fwd z _

theorem readLE_len {w v : Nat} {bs r : Bytes} (h : readLE w bs = .ok v r) : bs.length = w + r.length := by
  rw [readLE] at h
  obtain ⟨b, r', h1, h2⟩ := bind_eq_ok h
  simp only [rpure_run, Res.ok.injEq] at h2
  rw [readN] at h1
  split at h1
  · simp only [Res.ok.injEq] at h1
    rw [← h2.2, ← h1.2, List.length_drop]; omega
  · simp at h1

theorem readN_inv {n : Nat} {b bs r : Bytes} (h : readN n bs = .ok b r) : bs = b ++ r ∧ b.length = n := by
  rw [readN] at h
  split at h
  · simp only [Res.ok.injEq] at h
    rw [← h.1, ← h.2]; simp; omega
  · simp at h

/-- What a successful frame read has checked. -/
theorem decompressBuffer_inv {z : Codec} {bs d r : Bytes} (h : decompressBuffer z bs = .ok d r) :
    ∃ lo hi compressed original body d', bs = putLE 8 lo ++ putLE 8 hi ++ (frameHeader compressed original ++ body) ++ r ∧
      (z.hash (frameHeader compressed original ++ body)).1.toNat = lo ∧
      (z.hash (frameHeader compressed original ++ body)).2.toNat = hi ∧
      9 ≤ compressed ∧ compressed ≤ 0x40000000 ∧ original < 2 ^ 32 ∧ body.length = compressed - 9 ∧
      z.decompress body original = some d' ∧ d = resizeB d' original := by
  have inv : ∀ {w v : Nat} {bs r : Bytes}, readLE w bs = .ok v r → bs = putLE w v ++ r ∧ v < 256 ^ w := by
    intro w v bs r h
    rw [readLE] at h
    obtain ⟨b, r', h1, h2⟩ := bind_eq_ok h
    simp only [rpure_run, Res.ok.injEq] at h2
    obtain ⟨g1, g2⟩ := readN_inv h1
    rw [← h2.1, ← h2.2]
    subst g2
    exact ⟨by rw [putLE_getLE, g1], getLE_lt b⟩
  rw [decompressBuffer] at h
  obtain ⟨lo, r1, h1, h⟩ := bind_eq_ok h
  obtain ⟨hi, r2, h2, h⟩ := bind_eq_ok h
  obtain ⟨m, r3, h3, h⟩ := bind_eq_ok h
  split at h
  · simp at h
  rename_i hm
  simp only [Decidable.not_not] at hm
  obtain ⟨c, r4, h4, h⟩ := bind_eq_ok h
  obtain ⟨o, r5, h5, h⟩ := bind_eq_ok h
  split at h
  · simp at h
  obtain ⟨body, r6, h6, h⟩ := bind_eq_ok h
  split at h
  · simp at h
  rename_i hh
  simp only [not_or, Decidable.not_not] at hh
  split at h
  · simp at h
  generalize hd : z.decompress body o = od at h
  cases od with
  | none => simp at h
  | some d' =>
    simp only [rpure_run, Res.ok.injEq] at h
    obtain ⟨e1, _⟩ := inv h1
    obtain ⟨e2, _⟩ := inv h2
    obtain ⟨e3, _⟩ := inv h3
    obtain ⟨e4, _⟩ := inv h4
    obtain ⟨e5, ho⟩ := inv h5
    obtain ⟨e6, hl⟩ := readN_inv h6
    refine ⟨lo, hi, c, o, body, d', ?_, hh.1, hh.2, by omega, by omega, by simpa using ho, hl, hd, h.1.symm⟩
    rw [e1, e2, e3, e4, e5, e6, hm, h.2]
    simp [frameHeader, putLE]

theorem decompressBuffer_progress {z : Codec} {bs d r : Bytes} (h : decompressBuffer z bs = .ok d r) : r.length < bs.length := by
  obtain ⟨lo, hi, c, o, body, d', rfl, _⟩ := decompressBuffer_inv h
  simp [frameHeader]; omega

theorem decompressBuffer_put {z : Codec} {compressed original : Nat} {body d : Bytes} (h9 : 9 ≤ compressed)
    (hmax : compressed ≤ 0x40000000) (ho : original < 2 ^ 32) (hb : body.length = compressed - 9)
    (hd : z.decompress body original = some d) (rest : Bytes) :
    decompressBuffer z (putLE 8 (z.hash (frameHeader compressed original ++ body)).1.toNat ++
      putLE 8 (z.hash (frameHeader compressed original ++ body)).2.toNat ++ (frameHeader compressed original ++ body) ++ rest) =
      .ok (resizeB d original) rest := by
  generalize hf : z.hash (frameHeader compressed original ++ body) = f
  have l1 := f.1.toNat_lt
  have l2 := f.2.toNat_lt
  rw [decompressBuffer, show ∀ x y w : Bytes, x ++ y ++ (frameHeader compressed original ++ body) ++ w =
    x ++ (y ++ (putLE 1 0x82 ++ (putLE 4 compressed ++ (putLE 4 original ++ (body ++ w))))) from
    fun x y w => by simp [frameHeader, putLE]]
  rw [bind_ok (readLE_put (by simpa using l1) _), bind_ok (readLE_put (by simpa using l2) _), bind_ok (readLE_put (by decide) _),
    if_neg (by decide), bind_ok (readLE_put (by omega) _), bind_ok (readLE_put (by simpa using ho) _), if_neg (by omega),
    bind_ok (readN_append' _ _ hb), hf, if_neg (by simp), if_neg (by omega), hd]
  rfl


/-- A frame carrying `d`. -/
def Spec.IsFrame (z : Codec) (f d : Bytes) : Prop := ∀ rest, decompressBuffer z (f ++ rest) = .ok d rest

theorem putFrame_isFrame {z : Codec} {data : Bytes} (hz : z.decompress (z.compress data) data.length = some data)
    (hmax : 9 + (z.compress data).length ≤ 0x40000000) (hlen : data.length < 2 ^ 32) : Spec.IsFrame z (putFrame z data) data := by
  intro rest
  have := decompressBuffer_put (z := z) (compressed := 9 + (z.compress data).length) (original := data.length)
    (body := z.compress data) (d := data) (by omega) hmax hlen (by omega) hz rest
  rw [putFrame, this]
  simp [resizeB]

/-- Reading through frames. `buf` is what has been decompressed before. -/
theorem readCompressed_frames {z : Codec} {p : Reader α} (hp : Mono p) (fs : List (Bytes × Bytes))
    (hf : ∀ f ∈ fs, Spec.IsFrame z f.1 f.2 ∧ f.2 ≠ []) (a : α) (rest : Bytes) (buf : Bytes)
    (h : p (buf ++ (fs.map Prod.snd).flatten) = .ok a []) :
    Reader.loop (refill z p) buf ((fs.map Prod.fst).flatten ++ rest) = .ok a rest := by
  induction fs generalizing buf with
  | nil =>
    simp only [List.map_nil, List.flatten_nil, List.append_nil] at h
    exact loop_inr (by rw [refill, h]; rfl)
  | cons f fs ih =>
    obtain ⟨f, d⟩ := f
    obtain ⟨hfr, hd⟩ := hf (f, d) (by simp)
    simp only [List.map_cons, List.flatten_cons, List.append_assoc] at h ⊢
    have hm : p buf = .more := hp.prefix_more h (by simpa using fun h => absurd h hd)
    have hr := hfr ((fs.map Prod.fst).flatten ++ rest)
    rw [loop_inl (s' := buf ++ d) (r := (fs.map Prod.fst).flatten ++ rest)]
    · exact ih (fun g hg => hf g (by simp [hg])) (buf ++ d) (by rw [List.append_assoc]; exact h)
    · rw [refill, hm]
      simp only
      rw [bind_ok hr, if_neg hd]; rfl
    · exact decompressBuffer_progress hr

/-! Packets. -/

theorem since_mono {r m : Nat} {p : Reader α} {d : α} (h : Mono p) : Mono (since r m p d) := Mono.ite h (Mono.pure _)
theorem since_fwd {r m : Nat} {p : Reader α} {d : α} (h : Fwd p) : Fwd (since r m p d) := Fwd.ite h (Fwd.pure _)

theorem readTz_mono (env : Env) : Mono (readTz env) := readString_mono.bind fun _ => Mono.ite (Mono.pure _) (Mono.fail _)
theorem readTz_fwd (env : Env) : Fwd (readTz env) := readString_fwd.bind fun _ => Fwd.ite (Fwd.pure _) (Fwd.fail _)

theorem parseHello_mono (env : Env) : Mono (parseHello env) :=
  readString_mono.bind fun _ => readUvarint_mono.bind fun _ => readUvarint_mono.bind fun _ => readUvarint_mono.bind fun _ =>
    (since_mono (readTz_mono env)).bind fun _ => (since_mono readString_mono).bind fun _ => (since_mono readUvarint_mono).bind fun _ =>
      Mono.pure _
theorem parseHello_fwd (env : Env) : Fwd (parseHello env) :=
  readString_fwd.bind fun _ => readUvarint_fwd.bind fun _ => readUvarint_fwd.bind fun _ => readUvarint_fwd.bind fun _ =>
    (since_fwd (readTz_fwd env)).bind fun _ => (since_fwd readString_fwd).bind fun _ => (since_fwd readUvarint_fwd).bind fun _ =>
      Fwd.pure _

theorem parseBody_mono (env : Env) (info : TransportInfo) (k : Nat) : Mono (parseBody env info k) := by
  rw [parseBody]
  refine Mono.ite (parseHello_mono env) (Mono.ite (Mono.pure _) (Mono.ite ?_ (Mono.ite ?_
    (Mono.ite ?_ (Mono.ite ?_ (Mono.ite ?_ (Mono.ite (Mono.pure _) (Mono.fail _))))))))
  · exact readUvarint_mono.bind fun _ => readUvarint_mono.bind fun _ => (since_mono readUvarint_mono).bind fun _ =>
      (since_mono (readUvarint_mono.bind fun _ => readUvarint_mono.bind fun _ => Mono.pure _)).bind fun _ => Mono.pure _
  · exact readUvarint_mono.bind fun _ => readUvarint_mono.bind fun _ => readUvarint_mono.bind fun _ => readBool_mono.bind fun _ =>
      readUvarint_mono.bind fun _ => readBool_mono.bind fun _ => Mono.pure _
  · exact readString_mono.bind fun _ => readString_mono.bind fun _ => Mono.pure _
  · exact (readLE_mono 4).bind fun _ => readString_mono.bind fun _ => readString_mono.bind fun _ => readString_mono.bind fun _ => Mono.pure _
  · rw [parseBlock]
    cases info.timezone with
    | none => exact Mono.fail _
    | some tz => exact skipString_mono.bind fun _ => (blockLoad_mono _ _ _ _).bind fun _ => Mono.pure _

theorem parseBody_fwd (env : Env) (info : TransportInfo) (k : Nat) : Fwd (parseBody env info k) := by
  rw [parseBody]
  refine Fwd.ite (parseHello_fwd env) (Fwd.ite (Fwd.pure _) (Fwd.ite ?_ (Fwd.ite ?_
    (Fwd.ite ?_ (Fwd.ite ?_ (Fwd.ite ?_ (Fwd.ite (Fwd.pure _) (Fwd.fail _))))))))
  · exact readUvarint_fwd.bind fun _ => readUvarint_fwd.bind fun _ => (since_fwd readUvarint_fwd).bind fun _ =>
      (since_fwd (readUvarint_fwd.bind fun _ => readUvarint_fwd.bind fun _ => Fwd.pure _)).bind fun _ => Fwd.pure _
  · exact readUvarint_fwd.bind fun _ => readUvarint_fwd.bind fun _ => readUvarint_fwd.bind fun _ => readBool_fwd.bind fun _ =>
      readUvarint_fwd.bind fun _ => readBool_fwd.bind fun _ => Fwd.pure _
  · exact readString_fwd.bind fun _ => readString_fwd.bind fun _ => Fwd.pure _
  · exact (readLE_fwd 4).bind fun _ => readString_fwd.bind fun _ => readString_fwd.bind fun _ => readString_fwd.bind fun _ => Fwd.pure _
  · rw [parseBlock]
    cases info.timezone with
    | none => exact Fwd.fail _
    | some tz => exact skipString_fwd.bind fun _ => (blockLoad_fwd _ _ _ _).bind fun _ => Fwd.pure _

theorem parsePacket_mono (env : Env) (info : TransportInfo) : Mono (parsePacket env info) :=
  readUvarint_mono.bind fun _ => parseBody_mono _ _ _
theorem parsePacket_fwd (env : Env) (info : TransportInfo) : Fwd (parsePacket env info) :=
  readUvarint_fwd.bind fun _ => parseBody_fwd _ _ _

/-- A packet takes at least one byte. -/
theorem parsePacket_progress {env : Env} {info : TransportInfo} {bs r : Bytes} {p : Packet}
    (h : parsePacket env info bs = .ok p r) : r.length < bs.length := by
  rw [parsePacket] at h
  obtain ⟨k, r', h1, h2⟩ := bind_eq_ok h
  have h3 := readUvarint_progress h1
  obtain ⟨c, hc⟩ := (parseBody_fwd env info k).ok h2
  rw [hc] at h3
  simp only [List.length_append] at h3; omega

theorem parsePacket_put {env : Env} {info : TransportInfo} {k : Nat} (hk : k < 2 ^ 64) (bs : Bytes) :
    parsePacket env info (putUvarint k ++ bs) = parseBody env info k bs := by
  rw [parsePacket, bind_ok (readUvarint_put hk _)]

theorem since_ok {r m : Nat} {p : Reader α} {d a : α} {b rest : Bytes} (hp : m ≤ r → p (b ++ rest) = .ok a rest)
    (hd : ¬ m ≤ r → a = d) : since r m p d (Spec.fieldSince r m b ++ rest) = .ok a rest := by
  rw [since, Spec.fieldSince]
  by_cases h : m ≤ r
  · rw [if_pos h, if_pos h, hp h]
  · rw [if_neg h, if_neg h, hd h]; rfl

end CH
