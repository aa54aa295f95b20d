import Verif.Spec.Memory
import Verif.Lemmas.Transport

/-! C99: memory is only read where it has been written, and references stay valid. -/

namespace CH.Props
open CH CH.Spec CH.Mem

/-! ### The receive buffer -/

/-- In the loop: the bytes up to `g` are written, `g` is within the length, the length within the allocation. -/
def Filled (v : Buf) (g : Nat) (bs : Bytes) : Prop :=
  g = bs.length ∧ g ≤ v.len ∧ v.len ≤ v.mem.length ∧ v.mem.take g = bs.map some

theorem filled_room (grow : Nat → Nat → Nat) {v : Buf} {g : Nat} {bs : Bytes} (h : Filled v g bs) :
    ∃ v1, (if g = v.len then (v.reserve grow 32).setLen (v.reserve grow 32).mem.length else some v) = some v1 ∧
      Filled v1 g bs ∧ g < v1.len := by
  obtain ⟨h1, h2, h3, h4⟩ := h
  by_cases he : g = v.len
  · rw [if_pos he, Buf.setLen, if_pos (Nat.le_refl _)]
    refine ⟨_, rfl, ?_⟩
    unfold Buf.reserve
    split
    · have e : (v.mem.take v.len).length = g := by rw [List.length_take]; omega
      refine ⟨⟨h1, ?_, Nat.le_refl _, ?_⟩, ?_⟩
      · simp only [List.length_append, e]; omega
      · rw [List.take_append_of_le_length (by omega), ← he, List.take_take, Nat.min_self]; exact h4
      · simp only [List.length_append, e, List.length_replicate]; omega
    · exact ⟨⟨h1, by dsimp only; omega, Nat.le_refl _, h4⟩, by dsimp only; omega⟩
  · rw [if_neg he]
    exact ⟨v, rfl, ⟨h1, h2, h3, h4⟩, by omega⟩

theorem filled_setLen {v : Buf} {g : Nat} {bs : Bytes} (h : Filled v g bs) : ∃ v', v.setLen g = some v' ∧ BufHolds v' bs := by
  obtain ⟨h1, h2, h3, h4⟩ := h
  rw [Buf.setLen, if_pos (by omega)]
  exact ⟨_, rfl, by dsimp only; omega, h4⟩

theorem filled_store {v : Buf} {g : Nat} {bs b : Bytes} (h : Filled v g bs) (hb : b.length ≤ v.len - g) :
    ∃ v', v.store g b = some v' ∧ Filled v' (g + b.length) (bs ++ b) := by
  obtain ⟨h1, h2, h3, h4⟩ := h
  have e : (v.mem.take g).length = g := by rw [List.length_take]; omega
  rw [Buf.store, if_pos ⟨by omega, h3⟩]
  refine ⟨_, rfl, by simp [h1], by dsimp only; omega, ?_, ?_⟩
  · simp only [List.length_append, e, List.length_map, List.length_drop]; omega
  · dsimp only
    rw [List.take_append_of_le_length (by simp [e]), List.take_of_length_le (by simp [e]), h4]
    simp

theorem fill_spec (grow : Nat → Nat → Nat) (start : Nat) {socks : List Sock} {v : Buf} {g : Nat} {bs : Bytes}
    (hh : ∀ s ∈ socks, HonestSock s) (h : Filled v g bs) :
    ∃ f v' rest bs' used evs, fill grow start socks v g = some (f, v', rest) ∧ BufHolds v' bs' ∧ socks = used ++ rest ∧
      Answers used evs ∧ CH.readToEnd start evs bs = (f, bs', []) := by
  induction socks generalizing v g bs with
  | nil =>
    obtain ⟨v1, e1, h1, hr⟩ := filled_room grow h
    obtain ⟨v', e2, h2⟩ := filled_setLen h1
    refine ⟨.pending, v', [], bs, [], [], ?_, h2, rfl, .nil, rfl⟩
    rw [fill, e1]
    simp only [e2, Option.map]
    rw [if_neg (by omega)]
  | cons s socks ih =>
    obtain ⟨v1, e1, h1, hr⟩ := filled_room grow h
    obtain ⟨v', e2, h2⟩ := filled_setLen h1
    have hpos : 0 < v1.len - g := by omega
    cases hs : s (v1.len - g) with
    | pending =>
      refine ⟨.pending, v', socks, bs, [s], [s (v1.len - g)], ?_, h2, rfl, .cons hpos .nil, by rw [hs]; rfl⟩
      rw [fill, e1]
      simp only [hs, e2, Option.map]
      rw [if_neg (by omega)]
    | fail =>
      refine ⟨.fail, v', socks, bs, [s], [s (v1.len - g)], ?_, h2, rfl, .cons hpos .nil, by rw [hs]; rfl⟩
      rw [fill, e1]
      simp only [hs, e2, Option.map]
      rw [if_neg (by omega)]
    | ready b =>
      obtain ⟨v2, e3, h3⟩ := filled_store h1 (hh s (by simp) _ _ hs)
      by_cases hb : b = []
      · subst hb
        simp only [List.length_nil, Nat.add_zero, List.append_nil] at h3
        obtain ⟨v4, e4, h4⟩ := filled_setLen h3
        refine ⟨.ready (g - start), v4, socks, bs, [s], [s (v1.len - g)], ?_, h4, rfl, .cons hpos .nil, ?_⟩
        · rw [fill, e1]
          simp only [hs, e3, e4, Option.map, if_true]
          rw [if_neg (by omega)]
        · rw [hs, CH.readToEnd, if_pos rfl, h.1]
      · obtain ⟨f, v5, rest, bs', used, evs, i1, i2, i3, i4, i5⟩ := ih (fun s h => hh s (by simp [h])) h3
        refine ⟨f, v5, rest, bs', s :: used, s (v1.len - g) :: evs, ?_, i2, by rw [i3]; rfl, .cons hpos i4, ?_⟩
        · rw [fill, e1]
          simp only [hs, e3, hb, if_false, i1]
          rw [if_neg (by omega)]
        · rw [hs, CH.readToEnd, if_neg hb]
          exact i5

/-- C99. `read_to_end` into a vector that holds written bytes, whatever the library allocates and whatever honest sockets answer:
there is no undefined behaviour and no slice out of range, every socket is offered room, afterwards the vector holds only written
bytes, and the result and the bytes are those of the model of the transport on the answers of the sockets. -/
theorem C99_read_to_end (grow : Nat → Nat → Nat) (socks : List Sock) (v : Buf) (bs : Bytes) (hh : ∀ s ∈ socks, HonestSock s)
    (h : BufHolds v bs) :
    ∃ f v' rest bs' used evs, Mem.readToEnd grow socks v = some (f, v', rest) ∧ BufHolds v' bs' ∧ socks = used ++ rest ∧
      Answers used evs ∧ CH.readToEnd bs.length evs bs = (f, bs', []) := by
  obtain ⟨h1, h2⟩ := h
  have e : v.len = bs.length := by
    have := congrArg List.length h2
    simp only [Buf.shown, List.length_take, List.length_map] at this
    omega
  have := fill_spec grow v.len (v := v) (g := v.len) (bs := bs) hh ⟨e, Nat.le_refl _, h1, h2⟩
  rw [← e]
  exact this

/-- A socket that gives at most three bytes, and one that is closed; a vector with two bytes and no room. -/
example : (∀ s ∈ [(fun room => .ready (List.take room [7, 8, 9]) : Sock), fun _ => .ready []], HonestSock s) ∧
    BufHolds ⟨[some 1, some 2], 2⟩ [1, 2] ∧
    ∃ v', Mem.readToEnd (fun _ _ => 0) [fun room => .ready (List.take room [7, 8, 9]), fun _ => .ready []] ⟨[some 1, some 2], 2⟩ =
      some (.ready 3, v', []) ∧ v'.shown = [some 1, some 2, some 7, some 8, some 9] := by
  refine ⟨?_, ⟨by decide, rfl⟩, ?_⟩
  · intro s hs
    simp only [List.mem_cons, List.not_mem_nil, or_false] at hs
    rcases hs with rfl | rfl
    · intro room b h
      cases h
      rw [List.length_take]
      omega
    · intro room b h
      cases h
      exact Nat.zero_le _
  · refine ⟨⟨[some 1, some 2, some 7, some 8, some 9] ++ List.replicate 29 none, 5⟩, ?_, rfl⟩
    rw [Mem.readToEnd, fill]
    simp [Buf.reserve, Buf.setLen, Buf.store, List.replicate]
    rw [fill]
    simp [Buf.setLen, Buf.store]

/-- The contract is needed: a socket that claims more than it was lent makes the vector show memory out of its allocation. -/
example : Mem.readToEnd (fun _ _ => 0) [fun room => .ready (List.replicate (room + 1) 7)] ⟨[], 0⟩ = none := by
  rw [Mem.readToEnd, fill]
  simp [Buf.reserve, Buf.setLen, Buf.store]

theorem consume_spec {v : Buf} {bs : Bytes} (h : BufHolds v bs) {pos : Nat} (hp : pos ≤ bs.length) :
    ∃ v', v.consume pos = some v' ∧ BufHolds v' (bs.drop pos) := by
  obtain ⟨h1, h2⟩ := h
  have e : v.len = bs.length := by
    have := congrArg List.length h2
    simp only [Buf.shown, List.length_take, List.length_map] at this
    omega
  have el : (List.take (v.len - pos) (v.mem.drop pos)).length = v.len - pos := by
    rw [List.length_take, List.length_drop]; omega
  rw [Buf.consume, if_pos ⟨by omega, h1⟩, Buf.setLen, if_pos]
  · refine ⟨_, rfl, ?_, ?_⟩
    · simp only [List.length_append, el, List.length_drop]; omega
    · rw [Buf.shown]
      dsimp only
      rw [List.take_append_of_le_length (by omega), List.take_of_length_le (by omega), List.map_drop, ← h2, Buf.shown, List.drop_take]
  · simp only [List.length_append, el, List.length_drop]; omega

/-- C99. Removing a message that was read leaves exactly the bytes behind it. -/
theorem C99_consume (v : Buf) (bs : Bytes) (h : BufHolds v bs) (pos : Nat) (hp : pos ≤ bs.length) :
    ∃ v', v.consume pos = some v' ∧ BufHolds v' (bs.drop pos) := consume_spec h hp

example : BufHolds ⟨[some 1, some 2, some 3, none], 3⟩ [1, 2, 3] ∧
    (Buf.consume ⟨[some 1, some 2, some 3, none], 3⟩ 2).map Buf.shown = some [some 3] := ⟨⟨by decide, rfl⟩, rfl⟩

/-- C99. At no time of the life of a connection's receive buffer can a byte be seen that was not written, and neither filling nor
emptying it can go wrong. -/
theorem C99_buffer (grow : Nat → Nat → Nat) (v : Buf) (h : BufLife grow v) :
    (∃ bs, BufHolds v bs) ∧ (∀ s ∈ v.shown, s ≠ none) ∧
    (∀ socks, (∀ s ∈ socks, HonestSock s) → (Mem.readToEnd grow socks v).isSome) ∧ ∀ pos, pos ≤ v.len → (v.consume pos).isSome := by
  have key : ∃ bs, BufHolds v bs := by
    induction h with
    | new => exact ⟨[], Nat.le_refl _, rfl⟩
    | fill _ hh hr ih =>
      obtain ⟨bs, hb⟩ := ih
      obtain ⟨f, v', rest, bs', used, evs, h1, h2, -⟩ := C99_read_to_end grow _ _ bs hh hb
      rw [hr] at h1
      cases h1
      exact ⟨bs', h2⟩
    | @consume v v' pos _ hp hc ih =>
      obtain ⟨bs, hb⟩ := ih
      have e := congrArg List.length hb.2
      simp only [Buf.shown, List.length_take, List.length_map] at e
      have := hb.1
      obtain ⟨w, h1, h2⟩ := consume_spec hb (pos := pos) (by omega)
      rw [hc] at h1
      cases h1
      exact ⟨_, h2⟩
  obtain ⟨bs, hb⟩ := key
  refine ⟨⟨bs, hb⟩, ?_, ?_, ?_⟩
  · intro s hs
    rw [hb.2] at hs
    obtain ⟨x, -, rfl⟩ := List.mem_map.mp hs
    simp
  · intro socks hh
    obtain ⟨f, v', rest, bs', used, evs, h1, -⟩ := C99_read_to_end grow socks v bs hh hb
    rw [h1]
    rfl
  · intro pos hp
    have e := congrArg List.length hb.2
    simp only [Buf.shown, List.length_take, List.length_map] at e
    have := hb.1
    obtain ⟨v', h1, -⟩ := consume_spec hb (pos := pos) (by omega)
    rw [h1]
    rfl

/-- Three bytes arrive, the first two are a message that is read. -/
example : ∃ v, BufLife (fun _ _ => 0) v ∧ v.shown = [some 9] := by
  have h1 : ∀ s ∈ [(fun room => .ready (List.take room [7, 8, 9]) : Sock)], HonestSock s := fun s hs room b h => by
    rw [List.mem_singleton.mp hs] at h
    cases h
    rw [List.length_take]
    omega
  have e : Mem.readToEnd (fun _ _ => 0) [fun room => .ready (List.take room [7, 8, 9])] ⟨[], 0⟩ =
      some (.pending, ⟨[some 7, some 8, some 9] ++ List.replicate 29 none, 3⟩, []) := by
    rw [Mem.readToEnd, fill]
    simp [Buf.reserve, Buf.setLen, Buf.store, List.replicate]
    rw [fill]
    simp [Buf.setLen]
  exact ⟨_, .consume (pos := 2) (.fill .new h1 e) (by decide) rfl, rfl⟩

/-! ### Memory filled by `read_bytes` -/

theorem readBytes_spec {pick : Nat → Nat → Nat} (hp : ReadsSome pick) (written todo : List Slot) (bs : Bytes) :
    readBytes pick written todo bs =
      if todo.length ≤ bs.length then .ok (written ++ (bs.take todo.length).map some) (bs.drop todo.length) else .wouldBlock := by
  fun_induction readBytes pick written todo bs with
  | case1 written bs => simp
  | case2 written todo bs h0 hz =>
    have h1 : 0 < todo.length := List.length_pos_iff.mpr h0
    rw [if_neg]
    intro hle
    have := (hp bs.length todo.length).2.2 (by omega) h1
    omega
  | case3 written todo bs h0 hz hc ih =>
    rw [ih]
    generalize pick bs.length todo.length = n at hz hc
    by_cases hle : todo.length ≤ bs.length
    · rw [if_pos hle, if_pos (by simp only [List.length_drop]; omega)]
      have e : todo.length = n + (todo.length - n) := by omega
      rw [List.length_drop, List.append_assoc, ← List.map_append, List.drop_drop, ← e]
      conv in (List.take todo.length bs) => rw [e, List.take_add]
    · rw [if_neg hle, if_neg (by simp only [List.length_drop]; omega)]
  | case4 written todo bs h0 hz hc => exact absurd ⟨(hp _ _).1, (hp _ _).2.1⟩ hc

/-- C99. A vector whose length is set before its memory is written is only answered when all of its memory has been written, with
the bytes that the model of the reader takes; otherwise the function fails and the vector is gone. This holds however the reader
doles out its bytes. -/
theorem C99_vector (pick : Nat → Nat → Nat) (hp : ReadsSome pick) (width size : Nat) (bs : Bytes) :
    loadVec pick width size bs =
      match readN (size * width) bs with
      | .ok b r => .ok (b.map some) r
      | _ => .wouldBlock := by
  rw [loadVec, readBytes_spec hp, List.length_replicate, readN]
  split <;> rfl

/-- A cursor in memory, and a reader that gives one byte at a time. -/
example : ReadsSome (fun a b => min a b) ∧ ReadsSome (fun a b => min 1 (min a b)) :=
  ⟨fun a b => by dsimp only; omega, fun a b => by dsimp only; omega⟩

example : loadVec (fun a b => min 1 (min a b)) 2 2 [1, 2, 3, 4, 5] = .ok [some 1, some 2, some 3, some 4] [5] := by
  rw [C99_vector _ (fun a b => by omega)]
  rfl

/-- C99 fails for columns of type `Bool`: the bytes of the server become the memory of a vector of `bool`, and any byte but 0 and 1 is
undefined behaviour. -/
theorem C99_bool_violated : ∃ bs mem rest, loadVec (fun a b => min a b) NumTy.bool.width 1 bs = .ok mem rest ∧
    ∃ b, mem = [some b] ∧ ¬ BoolByte b := by
  refine ⟨[2], [some 2], [], ?_, 2, rfl, by unfold BoolByte; decide⟩
  rw [C99_vector _ (fun a b => by omega)]
  rfl

/-- C99 for columns of type `Bool`, if the server only sends 0 and 1. -/
theorem C99_bool_partial (pick : Nat → Nat → Nat) (hp : ReadsSome pick) (size : Nat) (bs : Bytes) (mem : List Slot) (rest : Bytes)
    (hb : ∀ b ∈ bs, BoolByte b) (h : loadVec pick NumTy.bool.width size bs = .ok mem rest) :
    mem.length = size ∧ ∀ s ∈ mem, ∃ b, s = some b ∧ BoolByte b := by
  rw [C99_vector pick hp, readN] at h
  split at h
  · rename_i b r hr
    by_cases hle : size * NumTy.bool.width ≤ bs.length
    · rw [if_pos hle] at hr
      cases hr
      cases h
      refine ⟨by simp only [List.length_map, List.length_take, NumTy.width] at *; omega, fun s hs => ?_⟩
      obtain ⟨x, hx, rfl⟩ := List.mem_map.mp hs
      exact ⟨x, rfl, hb x (List.mem_of_mem_take hx)⟩
    · rw [if_neg hle] at hr
      cases hr
  · cases h

example : loadVec (fun a b => min a b) NumTy.bool.width 2 [1, 0] = .ok [some 1, some 0] [] := by
  rw [C99_vector _ (fun a b => by omega)]
  rfl

/-! ### The buffers given to LZ4 -/

theorem resizeB_self (a b : Bytes) {n : Nat} (h : a.length = n) : resizeB (a ++ b) n = a := by
  rw [resizeB]
  subst h
  simp

/-- C99. If LZ4 never writes more than is documented for the size of the input, the buffer is large enough, and holds the nine bytes
for the header and what LZ4 wrote. (`_partial`: the number of bytes that LZ4 is told does not ensure this, `C99_capacity_violated`.) -/
theorem C99_compress_partial (lz4 : Writer)
    (h : ∀ d n, d.length ≤ 0x7E000000 → (lz4 d n).length ≤ d.length + d.length / 255 + 16) (data : Bytes)
    (hd : data.length ≤ 0x7E000000) :
    ∃ n, compressMem lz4 data = some (List.replicate 9 0 ++ lz4 data n) := by
  have hb : bound data.length = data.length + data.length / 255 + 16 := by
    rw [bound, if_pos (by unfold lz4Max; exact hd)]
  refine ⟨9 + bound data.length, ?_⟩
  rw [compressMem]
  rw [List.length_replicate, if_pos (by have := h data (9 + bound data.length) hd; omega), resizeB_self]
  · rw [List.take_replicate]
    rw [show min 9 (9 + bound data.length) = 9 by omega]
  · simp only [List.length_append, List.length_take, List.length_replicate]
    omega

/-- A writer that keeps to the bound and writes something. -/
def exWriter : Writer := fun d _ => d ++ [0]

example : (∀ d n, d.length ≤ 0x7E000000 → (exWriter d n).length ≤ d.length + d.length / 255 + 16) ∧
    exWriter [1, 2, 3] 28 = [1, 2, 3, 0] :=
  ⟨fun d n _ => by simp only [exWriter, List.length_append, List.length_singleton]; omega, rfl⟩

/-- C99 fails if LZ4 makes use of the room it is told of: the number is that of the whole buffer, of which LZ4 is lent all but nine
bytes. (Version 1 of LZ4 never writes more than its bound, so this is harmless as long as that is so.) -/
theorem C99_capacity_violated : ∃ lz4 : Writer, (∀ d n, (lz4 d n).length ≤ n) ∧ ∀ data, compressMem lz4 data = none := by
  refine ⟨fun _ n => List.replicate n 0, fun d n => by simp, fun data => ?_⟩
  rw [compressMem]
  rw [List.length_replicate, List.length_replicate, if_neg (by omega)]

/-- C99. Decompressing is right as soon as LZ4 writes no more than it is told: the buffer has exactly the announced size. -/
theorem C99_decompress (lz4 : Bytes → Nat → Option Bytes) (h : ∀ b n out, lz4 b n = some out → out.length ≤ n) (body : Bytes)
    (original : Nat) :
    (∃ r, decompressMem lz4 body original = some r) ∧
      ∀ d, decompressMem lz4 body original = some (some d) → d.length = original ∧ ∃ out, lz4 body original = some out ∧ out <+: d := by
  unfold decompressMem
  by_cases hb : 2 ^ 31 ≤ original
  · rw [if_pos hb]
    exact ⟨⟨_, rfl⟩, fun d h => by cases h⟩
  · rw [if_neg hb]
    cases hl : lz4 body original with
    | none => exact ⟨⟨_, rfl⟩, fun d h => by cases h⟩
    | some out =>
      have hle := h _ _ _ hl
      simp only [if_pos hle]
      refine ⟨⟨_, rfl⟩, fun d hd => ?_⟩
      cases hd
      refine ⟨?_, out, rfl, ?_⟩
      · simp [resizeB]; omega
      · rw [resizeB, List.take_of_length_le hle]
        exact List.prefix_append _ _

/-- A decompressor that writes no more than it is told, and fills the buffer but for the last byte. -/
def exUnpack : Bytes → Nat → Option Bytes := fun b n => if b.isEmpty then none else some (b.take n)

example : (∀ b n out, exUnpack b n = some out → out.length ≤ n) ∧ decompressMem exUnpack [7, 8] 3 = some (some [7, 8, 0]) := by
  refine ⟨fun b n out h => ?_, by decide +kernel⟩
  rw [exUnpack] at h
  split at h
  · cases h
  · cases h
    simp only [List.length_take]
    omega

/-! ### The cache of types -/

/-- Every entry of the table points at a box that holds its key, and every key is there once. -/
structure CacheTidy (c : Cache) : Prop where
  right : ∀ t i, c.entries.lookup t = some i → c.boxes[i]? = some t
  full : ∀ i t, c.boxes[i]? = some t → c.entries.lookup t = some i

theorem tidy_intern {c : Cache} (h : CacheTidy c) (t : SqlType) :
    CacheTidy (intern c t).2 ∧ (intern c t).2.deref (intern c t).1 = some t ∧
      ∀ r x, c.deref r = some x → (intern c t).2.deref r = some x := by
  unfold intern
  by_cases hc : isConstant t = true
  · rw [if_pos hc]
    exact ⟨h, rfl, fun _ _ h => h⟩
  · rw [if_neg hc]
    cases hl : c.entries.lookup t with
    | some i => exact ⟨h, h.right t i hl, fun _ _ h => h⟩
    | none =>
      refine ⟨⟨?_, ?_⟩, ?_, ?_⟩
      · intro t' i hi
        dsimp only at hi ⊢
        rw [List.lookup_cons] at hi
        by_cases ht : t' = t
        · subst ht
          simp at hi
          subst hi
          simp
        · have : (t' == t) = false := by simpa using ht
          rw [this] at hi
          have hb := h.right t' i hi
          have hlt : i < c.boxes.length := by
            rcases Nat.lt_or_ge i c.boxes.length with h | h
            · exact h
            · rw [List.getElem?_eq_none h] at hb; cases hb
          rw [List.getElem?_append_left hlt]
          exact hb
      · intro i t' hi
        dsimp only at hi ⊢
        rw [List.lookup_cons]
        rcases Nat.lt_trichotomy i c.boxes.length with hlt | heq | hgt
        · rw [List.getElem?_append_left hlt] at hi
          have := h.full i t' hi
          have ht : t' ≠ t := by
            rintro rfl
            rw [hl] at this
            cases this
          have : (t' == t) = false := by simpa using ht
          rw [this]
          exact h.full i t' hi
        · subst heq
          simp at hi
          subst hi
          simp
        · rw [List.getElem?_eq_none (by simp; omega)] at hi
          cases hi
      · simp [Cache.deref]
      · intro r x hr
        cases r with
        | constant _ => exact hr
        | box i =>
          simp only [Cache.deref] at hr ⊢
          have hlt : i < c.boxes.length := by
            rcases Nat.lt_or_ge i c.boxes.length with h | h
            · exact h
            · rw [List.getElem?_eq_none h] at hr; cases hr
          rw [List.getElem?_append_left hlt]
          exact hr

theorem interned_spec {c c' : Cache} {l : List (SqlType × TypeRef)} (h : Interned c l c') (hc : CacheTidy c) :
    CacheTidy c' ∧ (∀ p ∈ l, c'.deref p.2 = some p.1 ∧ (p.2 = .constant p.1 ↔ isConstant p.1 = true)) ∧
      ∀ r x, c.deref r = some x → c'.deref r = some x := by
  induction h with
  | nil c => exact ⟨hc, fun p hp => (by cases hp), fun _ _ h => h⟩
  | @cons c t l c' _ ih =>
    obtain ⟨h1, h2, h3⟩ := tidy_intern hc t
    obtain ⟨i1, i2, i3⟩ := ih h1
    refine ⟨i1, fun p hp => ?_, fun r x h => i3 r x (h3 r x h)⟩
    rcases List.mem_cons.mp hp with rfl | hp
    · refine ⟨i3 _ _ h2, ?_⟩
      unfold intern
      by_cases hk : isConstant t = true
      · rw [if_pos hk]; exact ⟨fun _ => hk, fun _ => rfl⟩
      · rw [if_neg hk]
        refine ⟨fun h => ?_, fun h => absurd h hk⟩
        cases hl : c.entries.lookup t <;> rw [hl] at h <;> cases h
    · exact i2 p hp

/-- C99. A reference to a type points at that type for ever, however many types are interned afterwards. -/
theorem C99_types (l : List (SqlType × TypeRef)) (c : Cache) (h : Interned ⟨[], []⟩ l c) :
    ∀ p ∈ l, c.deref p.2 = some p.1 := by
  have ht : CacheTidy ⟨[], []⟩ := ⟨fun _ _ h => (by cases h), fun _ _ h => (by cases h)⟩
  exact fun p hp => ((interned_spec h ht).2.1 p hp).1

/-- C99. Two references are the same exactly if the types are, so that the cache does not grow for a type it has. -/
theorem C99_types_once (l : List (SqlType × TypeRef)) (c : Cache) (h : Interned ⟨[], []⟩ l c) :
    ∀ p ∈ l, ∀ q ∈ l, p.2 = q.2 ↔ p.1 = q.1 := by
  have ht : CacheTidy ⟨[], []⟩ := ⟨fun _ _ h => (by cases h), fun _ _ h => (by cases h)⟩
  obtain ⟨h1, h2, -⟩ := interned_spec h ht
  intro p hp q hq
  obtain ⟨p1, p2⟩ := h2 p hp
  obtain ⟨q1, q2⟩ := h2 q hq
  constructor
  · intro e
    rw [e, q1] at p1
    exact (Option.some.inj p1).symm
  · intro e
    by_cases hk : isConstant p.1 = true
    · rw [p2.mpr hk, q2.mpr (by rw [← e]; exact hk), e]
    · have key : ∀ r : TypeRef, c.deref r = some p.1 → r ≠ .constant p.1 → ∃ i, r = .box i ∧ c.entries.lookup p.1 = some i := by
        intro r hr hn
        cases r with
        | constant t => simp only [Cache.deref, Option.some.injEq] at hr; subst hr; exact absurd rfl hn
        | box i => exact ⟨i, rfl, h1.full i _ hr⟩
      obtain ⟨i, e1, e2⟩ := key p.2 p1 (fun h => hk (p2.mp h))
      obtain ⟨j, e3, e4⟩ := key q.2 (by rw [e]; exact q1) (fun h => hk (by rw [e]; exact q2.mp (by rw [h, e])))
      rw [e2] at e4
      cases e4
      rw [e1, e3]

/-- Three types, one of them twice. -/
example : Interned ⟨[], []⟩ [(.array .string, .box 0), (.string, .constant .string), (.nullable .date, .box 1), (.array .string, .box 0)]
    ⟨[(.nullable .date, 1), (.array .string, 0)], [.array .string, .nullable .date]⟩ :=
  .cons (.cons (.cons (.cons (.nil _))))

/-- C99: the twelve types that are constants of the program never take memory in the table, whatever is in it; all others are boxed. -/
theorem C99_constants (c : Cache) (t : SqlType) : (intern c t = (.constant t, c) ∨ ∃ i, (intern c t).1 = .box i) ∧
    (intern c t = (.constant t, c) ↔ t ∈ [.num .u8, .num .u16, .num .u32, .num .u64, .num .i8, .num .i16, .num .i32, .num .i64, .string,
      .num .f32, .num .f64, .date]) := by
  have hb : isConstant t ≠ true → ∃ i, (intern c t).1 = .box i := by
    intro hk
    unfold intern
    rw [if_neg hk]
    cases c.entries.lookup t with
    | some i => exact ⟨_, rfl⟩
    | none => exact ⟨_, rfl⟩
  have hk : intern c t = (.constant t, c) ↔ isConstant t = true := by
    constructor
    · intro h
      by_cases hk : isConstant t = true
      · exact hk
      · obtain ⟨i, e⟩ := hb hk
        rw [h] at e
        cases e
    · intro h
      unfold intern
      rw [if_pos h]
  refine ⟨?_, ?_⟩
  · by_cases h : isConstant t = true
    · exact .inl (hk.mpr h)
    · exact .inr (hb h)
  · rw [hk]
    cases t with
    | num n => cases n <;> simp [isConstant]
    | _ => simp [isConstant]

example : intern ⟨[], []⟩ .date = (.constant .date, ⟨[], []⟩) ∧ (intern ⟨[], []⟩ (.nullable .date)).1 = .box 0 := ⟨rfl, rfl⟩

end CH.Props
