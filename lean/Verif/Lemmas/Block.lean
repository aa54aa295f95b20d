import Verif.Lemmas.Send
import Verif.Lemmas.Types
import Verif.Lemmas.Wire
import Verif.Spec.Block

namespace CH

/-! Incremental reading of columns and blocks. -/

theorem readMany_mono {p : Reader α} (hp : Mono p) : ∀ n, Mono (readMany p n)
  | 0 => Mono.pure _
  | n + 1 => hp.bind fun _ => (readMany_mono hp n).bind fun _ => Mono.pure _

theorem loadNums_mono (w n : Nat) : Mono (loadNums w n) := (alloc_mono _).bind fun _ => (readN_mono _).bind fun _ => Mono.pure _

theorem Plan.load_mono (p : Plan) (n : Nat) : Mono (p.load n) := by
  induction p generalizing n with
  | num t => exact (loadNums_mono _ _).bind fun _ => Mono.pure _
  | string => exact (alloc_mono _).bind fun _ => (readMany_mono (readBytesLP_mono _) _).bind fun _ => Mono.pure _
  | fixed k => exact (alloc_mono _).bind fun _ => (readMany_mono (readN_mono _) _).bind fun _ => Mono.pure _
  | date tz => exact (loadNums_mono _ _).bind fun _ => Mono.pure _
  | datetime tz => exact (loadNums_mono _ _).bind fun _ => Mono.pure _
  | dt64 p tz => exact (loadNums_mono _ _).bind fun _ => Mono.pure _
  | ip k => exact (alloc_mono _).bind fun _ => (readN_mono _).bind fun _ => Mono.pure _
  | nullable p ih => exact (alloc_mono _).bind fun _ => (readN_mono _).bind fun _ => (ih _).bind fun _ => Mono.pure _
  | array p ih => exact (loadNums_mono _ _).bind fun _ => (ih _).bind fun _ => Mono.pure _
  | map k v ihk ihv =>
    exact (loadNums_mono _ _).bind fun _ => (ihk _).bind fun _ => (ihv _).bind fun _ => Mono.pure _
  | decimal p s nb => exact (loadNums_mono _ _).bind fun _ => Mono.pure _
  | enum w items => exact (loadNums_mono _ _).bind fun _ => Mono.pure _
  | simpleAgg f p ih => exact (ih _).bind fun _ => Mono.pure _
  | lowCard p ih =>
    rw [Plan.load]
    refine Mono.ite ((ih _).bind fun _ => (loadNums_mono _ _).bind fun _ => Mono.pure _) ?_
    refine (readLE_mono 8).bind fun _ => Mono.ite (Mono.fail _) ?_
    refine (readLE_mono 8).bind fun flags => ?_
    cases IdxTy.fromFlags flags with
    | none => exact Mono.fail _
    | some ity =>
      exact Mono.ite (Mono.fail _) (Mono.ite (Mono.fail _) ((readLE_mono 8).bind fun _ => (ih _).bind fun _ =>
        (readLE_mono 8).bind fun _ => (loadNums_mono _ _).bind fun _ => Mono.ite (Mono.pure _) Mono.panic'))
  | bad e => exact Mono.fail e
  | crash => exact Mono.panic'

theorem readMany_fwd {p : Reader α} (hp : Fwd p) : ∀ n, Fwd (readMany p n)
  | 0 => Fwd.pure _
  | n + 1 => hp.bind fun _ => (readMany_fwd hp n).bind fun _ => Fwd.pure _

theorem loadNums_fwd (w n : Nat) : Fwd (loadNums w n) := (alloc_fwd _).bind fun _ => (readN_fwd _).bind fun _ => Fwd.pure _

theorem Plan.load_fwd (p : Plan) (n : Nat) : Fwd (p.load n) := by
  induction p generalizing n with
  | num t => exact (loadNums_fwd _ _).bind fun _ => Fwd.pure _
  | string => exact (alloc_fwd _).bind fun _ => (readMany_fwd (readBytesLP_fwd _) _).bind fun _ => Fwd.pure _
  | fixed k => exact (alloc_fwd _).bind fun _ => (readMany_fwd (readN_fwd _) _).bind fun _ => Fwd.pure _
  | date tz => exact (loadNums_fwd _ _).bind fun _ => Fwd.pure _
  | datetime tz => exact (loadNums_fwd _ _).bind fun _ => Fwd.pure _
  | dt64 p tz => exact (loadNums_fwd _ _).bind fun _ => Fwd.pure _
  | ip k => exact (alloc_fwd _).bind fun _ => (readN_fwd _).bind fun _ => Fwd.pure _
  | nullable p ih => exact (alloc_fwd _).bind fun _ => (readN_fwd _).bind fun _ => (ih _).bind fun _ => Fwd.pure _
  | array p ih => exact (loadNums_fwd _ _).bind fun _ => (ih _).bind fun _ => Fwd.pure _
  | map k v ihk ihv =>
    exact (loadNums_fwd _ _).bind fun _ => (ihk _).bind fun _ => (ihv _).bind fun _ => Fwd.pure _
  | decimal p s nb => exact (loadNums_fwd _ _).bind fun _ => Fwd.pure _
  | enum w items => exact (loadNums_fwd _ _).bind fun _ => Fwd.pure _
  | simpleAgg f p ih => exact (ih _).bind fun _ => Fwd.pure _
  | lowCard p ih =>
    rw [Plan.load]
    refine Fwd.ite ((ih _).bind fun _ => (loadNums_fwd _ _).bind fun _ => Fwd.pure _) ?_
    refine (readLE_fwd 8).bind fun _ => Fwd.ite (Fwd.fail _) ?_
    refine (readLE_fwd 8).bind fun flags => ?_
    cases IdxTy.fromFlags flags with
    | none => exact Fwd.fail _
    | some ity =>
      exact Fwd.ite (Fwd.fail _) (Fwd.ite (Fwd.fail _) ((readLE_fwd 8).bind fun _ => (ih _).bind fun _ =>
        (readLE_fwd 8).bind fun _ => (loadNums_fwd _ _).bind fun _ => Fwd.ite (Fwd.pure _) Fwd.panic'))
  | bad e => exact Fwd.fail e
  | crash => exact Fwd.panic'

theorem readBlockInfoStep_mono (i : BlockInfo) : Mono (readBlockInfoStep i) :=
  readUvarint_mono.bind fun _ => Mono.ite (readBool_mono.bind fun _ => Mono.pure _)
    (Mono.ite ((readLE_mono 4).bind fun _ => Mono.pure _) (Mono.ite (Mono.pure _) (Mono.fail _)))

theorem readBlockInfoStep_fwd (i : BlockInfo) : Fwd (readBlockInfoStep i) :=
  readUvarint_fwd.bind fun _ => Fwd.ite (readBool_fwd.bind fun _ => Fwd.pure _)
    (Fwd.ite ((readLE_fwd 4).bind fun _ => Fwd.pure _) (Fwd.ite (Fwd.pure _) (Fwd.fail _)))

theorem readBlockInfo_mono : Mono readBlockInfo := Mono.loop readBlockInfoStep_mono _
theorem readBlockInfo_fwd : Fwd readBlockInfo := Fwd.loop readBlockInfoStep_fwd _

theorem readColumn_mono (known : Tz → Bool) (tz : Tz) (n : Nat) : Mono (readColumn known tz n) :=
  readString_mono.bind fun _ => readString_mono.bind fun _ => (Plan.load_mono _ _).bind fun _ => Mono.pure _
theorem readColumn_fwd (known : Tz → Bool) (tz : Tz) (n : Nat) : Fwd (readColumn known tz n) :=
  readString_fwd.bind fun _ => readString_fwd.bind fun _ => (Plan.load_fwd _ _).bind fun _ => Fwd.pure _

theorem readColumns_mono (known : Tz → Bool) (tz : Tz) (rows : Nat) : ∀ n b, Mono (readColumns known tz rows n b)
  | 0, _ => Mono.pure _
  | n + 1, _ => (readColumn_mono known tz rows).bind fun _ => (Mono.lift _).bind fun b => readColumns_mono known tz rows n b
theorem readColumns_fwd (known : Tz → Bool) (tz : Tz) (rows : Nat) : ∀ n b, Fwd (readColumns known tz rows n b)
  | 0, _ => Fwd.pure _
  | n + 1, _ => (readColumn_fwd known tz rows).bind fun _ => (Fwd.lift _).bind fun b => readColumns_fwd known tz rows n b

theorem rawLoad_mono (known : Tz → Bool) (tz : Tz) : Mono (rawLoad known tz) :=
  readBlockInfo_mono.bind fun _ => readUvarint_mono.bind fun _ => readUvarint_mono.bind fun _ => readColumns_mono known tz _ _ _
theorem rawLoad_fwd (known : Tz → Bool) (tz : Tz) : Fwd (rawLoad known tz) :=
  readBlockInfo_fwd.bind fun _ => readUvarint_fwd.bind fun _ => readUvarint_fwd.bind fun _ => readColumns_fwd known tz _ _ _

/-! Block header. -/

theorem loop_inl {step : σ → Reader (σ ⊕ α)} {s s' : σ} {bs r : Bytes} (h : step s bs = .ok (.inl s') r)
    (hr : r.length < bs.length) : Reader.loop step s bs = Reader.loop step s' r := by
  rw [loop_run, h]; simp [hr]
theorem loop_inr {step : σ → Reader (σ ⊕ α)} {s : σ} {a : α} {bs r : Bytes} (h : step s bs = .ok (.inr a) r) :
    Reader.loop step s bs = .ok a r := by
  rw [loop_run, h]
theorem loop_err {step : σ → Reader (σ ⊕ α)} {s : σ} {e : Err} {bs r : Bytes} (h : step s bs = .err e r) :
    Reader.loop step s bs = .err e r := by
  rw [loop_run, h]

theorem readInfoStep_flag (i : BlockInfo) (b : Bool) (rest : Bytes) :
    readBlockInfoStep i (putUvarint 1 ++ putBool b ++ rest) = .ok (.inl { i with isOverflows := b }) rest := by
  rw [readBlockInfoStep, List.append_assoc, bind_ok (readUvarint_put (by decide) _), if_pos rfl, bind_ok (readBool_put _ _)]
  rfl
theorem readInfoStep_bucket (i : BlockInfo) (n : Nat) (hn : n < 256 ^ 4) (rest : Bytes) :
    readBlockInfoStep i (putUvarint 2 ++ putLE 4 n ++ rest) = .ok (.inl { i with bucketNum := toSigned 4 n }) rest := by
  rw [readBlockInfoStep, List.append_assoc, bind_ok (readUvarint_put (by decide) _), if_neg (by decide), if_pos rfl,
    bind_ok (readLE_put hn _)]
  rfl
theorem readInfoStep_end (i : BlockInfo) (rest : Bytes) :
    readBlockInfoStep i (putUvarint 0 ++ rest) = .ok (.inr i) rest := by
  rw [readBlockInfoStep, bind_ok (readUvarint_put (by decide) _), if_neg (by decide), if_neg (by decide), if_pos rfl]
  rfl
theorem readInfoStep_unknown (i : BlockInfo) (k : Nat) (hk : k < 2 ^ 64) (h : 2 < k) (rest : Bytes) :
    readBlockInfoStep i (putUvarint k ++ rest) = .err (.unknownPacket k) rest := by
  rw [readBlockInfoStep, bind_ok (readUvarint_put hk _), if_neg (by omega), if_neg (by omega), if_neg (by omega)]
  rfl

theorem readUvarint_put_len (k : Nat) : 0 < (putUvarint k).length := by
  rw [putUvarint]; split <;> simp

theorem readBlockInfo_put (i : BlockInfo) (h1 : -(2 ^ 31 : Nat) ≤ i.bucketNum) (h2 : i.bucketNum < (2 ^ 31 : Nat)) (rest : Bytes) :
    readBlockInfo (putBlockInfo i ++ rest) = .ok i rest := by
  rw [readBlockInfo, putBlockInfo, List.append_assoc, List.append_assoc,
    show ∀ x : Bytes, putUvarint 1 ++ putBool i.isOverflows ++ putUvarint 2 ++ x =
      putUvarint 1 ++ putBool i.isOverflows ++ (putUvarint 2 ++ x) from fun x => by simp]
  rw [loop_inl (readInfoStep_flag _ _ _) (by have := readUvarint_put_len 1; simp; omega)]
  rw [← List.append_assoc, loop_inl (readInfoStep_bucket _ _ (ofSigned_lt 4 _) _) (by have := readUvarint_put_len 2; simp; omega)]
  rw [loop_inr (readInfoStep_end _ _), toSigned_ofSigned (by decide) h1 h2]

/-! Block round trip. -/

theorem lift_ok {x : Out α} {a : α} (h : x = .ok a) (bs : Bytes) : Reader.lift x bs = .ok a bs := by subst h; rfl

/-- The column that arrives. -/
def NCol.arrived (tz : Tz) (n : Nat) (c : NCol) : NCol := ⟨c.name, c.data.sub tz 0 n⟩

theorem readColumn_put {known : Tz → Bool} {tz : Tz} {n : Nat} {c : NCol} (h : Spec.NColOK known tz n c) :
    ∃ bytes, c.write = .ok bytes ∧ ∀ rest, readColumn known tz n (bytes ++ rest) = .ok (c.arrived tz n) rest := by
  obtain ⟨d, hd, hl⟩ := save_load h.data h.room
  rw [Nat.sub_zero] at hl
  refine ⟨_, by rw [NCol.write, h.len]; simp only [obind_ok]; rw [hd]; rfl, fun rest => ?_⟩
  rw [readColumn, List.append_assoc, List.append_assoc, bind_ok (readString_put _ _ h.name), bind_ok (readString_put _ _ h.type)]
  rw [loadData, String.toList_ofList, resolve_name tz h.known]
  rw [bind_ok (hl rest)]; rfl

theorem append_arrived {n : Nat} {b : Block} {c : NCol} (hb : ∀ d ∈ b.columns, d.data.len = .ok n)
    (hc : c.data.len = .ok n) : b.append c = .ok { b with columns := b.columns ++ [c] } := by
  rw [Block.append, hc]
  cases hcols : b.columns with
  | nil => simp
  | cons d ds =>
    have : b.rowCount = .ok n := by rw [Block.rowCount, hcols]; exact hb d (by simp [hcols])
    simp [this]

theorem readColumns_put {known : Tz → Bool} {tz : Tz} {n : Nat} (cs : List NCol) (h : ∀ c ∈ cs, Spec.NColOK known tz n c) :
    ∃ bss, mapOut NCol.write cs = .ok bss ∧ ∀ (b : Block), (∀ d ∈ b.columns, d.data.len = .ok n) → ∀ rest,
      readColumns known tz n cs.length b (bss.flatten ++ rest) =
        .ok { b with columns := b.columns ++ cs.map (NCol.arrived tz n) } rest := by
  induction cs with
  | nil => exact ⟨[], rfl, fun b _ rest => by simp [readColumns]⟩
  | cons c cs ih =>
    obtain ⟨bs, h1, h2⟩ := readColumn_put (h c (by simp))
    obtain ⟨bss, g1, g2⟩ := ih fun c hc => h c (by simp [hc])
    refine ⟨bs :: bss, by rw [mapOut, h1]; simp only [obind_ok]; rw [g1]; rfl, fun b hb rest => ?_⟩
    have hl : (c.arrived tz n).data.len = .ok n := sub_len (h c (by simp)).data
    rw [List.length_cons, readColumns, List.flatten_cons, List.append_assoc, bind_ok (h2 _),
      bind_ok (lift_ok (append_arrived hb hl) _), g2]
    · simp
    · intro d hd
      simp only [List.mem_append, List.mem_singleton] at hd
      rcases hd with hd | rfl
      · exact hb d hd
      · exact hl

theorem rawLoad_write {known : Tz → Bool} {tz : Tz} {n : Nat} {b : Block} (h : Spec.BlockOK known tz n b) :
    ∃ bytes, b.write = .ok bytes ∧ ∀ rest, rawLoad known tz (bytes ++ rest) =
      .ok ⟨b.info, b.columns.map (NCol.arrived tz n)⟩ rest := by
  obtain ⟨bss, g1, g2⟩ := readColumns_put b.columns h.cols
  refine ⟨_, by rw [Block.write, h.rows]; simp only [obind_ok]; rw [g1]; rfl, fun rest => ?_⟩
  rw [rawLoad]
  simp only [List.append_assoc]
  rw [bind_ok (readBlockInfo_put _ h.lo h.hi _), bind_ok (readUvarint_put h.cols64 _), bind_ok (readUvarint_put h.rows64 _),
    g2 _ (by simp [Block.new])]
  simp [Block.new]

end CH
