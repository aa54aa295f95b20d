import Verif.Spec.Errors
import Verif.Model.Codes
import Verif.Lemmas.Text
import Verif.Props.Protocol

/-! C97: errors on their way to the caller. -/

namespace CH.Props
open CH CH.Spec CH.Errors

theorem reported_io (i : IoErr) : reported (.io i) = if i.kind = .wouldBlock then none else some (.io i) := by
  by_cases h : i.kind = .wouldBlock <;> simp [reported, tryParse, packetStream, Error.isWouldBlock, Error.toIo, ofIo, h]

theorem reported_else {e : Error} (h : ¬ IsIo e) : reported e = some (.io ⟨.other, e.text⟩) := by
  cases e with
  | io i => exact absurd ⟨i, rfl⟩ h
  | _ => rfl

theorem framed_io (i : IoErr) : framed (.io i) = .io i := rfl

theorem framed_else {e : Error} (h : ¬ IsIo e) : framed e = .io ⟨.other, e.text⟩ := by
  cases e with
  | io i => exact absurd ⟨i, rfl⟩ h
  | _ => rfl

theorem notYet_io (i : IoErr) : NotYet (.io i) ↔ i.kind = .wouldBlock := by
  obtain ⟨k, t⟩ := i
  constructor
  · rintro ⟨t', h⟩; cases h; rfl
  · intro h; cases h; exact ⟨t, rfl⟩

theorem notYet_isIo {e : Error} (h : NotYet e) : IsIo e := by
  obtain ⟨t, rfl⟩ := h; exact ⟨_, rfl⟩

theorem isIo_cases (e : Error) : IsIo e ∨ ¬ IsIo e := by
  cases e with
  | io i => exact .inl ⟨i, rfl⟩
  | _ => exact .inr (by rintro ⟨i, h⟩; cases h)

/-- C97: the caller is told nothing exactly if more bytes are needed: no error is taken for a lack of bytes and no lack of bytes is
reported as an error, be it in a compressed frame or not. -/
theorem C97_waiting (e : Error) : (reported e = none ↔ NotYet e) ∧ (reported (framed e) = none ↔ NotYet e) := by
  rcases isIo_cases e with ⟨i, rfl⟩ | h
  · rw [framed_io, and_self_iff, reported_io, notYet_io]
    split
    · next h => exact ⟨fun _ => h, fun _ => rfl⟩
    · next h => exact ⟨fun h2 => (by cases h2), fun h2 => absurd h2 h⟩
  · have hn : ¬ NotYet e := fun h2 => h (notYet_isIo h2)
    rw [framed_else h, reported_else h, reported_io, if_neg (by simp)]
    exact ⟨⟨fun h2 => (by cases h2), fun h2 => absurd h2 hn⟩, ⟨fun h2 => (by cases h2), fun h2 => absurd h2 hn⟩⟩

-- one that waits and two that do not
example : NotYet wouldBlock ∧ (¬ NotYet (.driver .overflow)) ∧ ¬ NotYet (.io ⟨.unexpectedEof, []⟩) :=
  ⟨⟨_, rfl⟩, (by rintro ⟨_, h⟩; cases h), (by rintro ⟨_, h⟩; cases h)⟩

/-- C97: what is reported is an error of input and output, and the text of the cause is in its text. -/
theorem C97_text (e r : Error) (h : reported e = some r ∨ reported (framed e) = some r) : IsIo r ∧ TextHas r.text e.text := by
  rcases isIo_cases e with ⟨i, rfl⟩ | hn
  · rw [framed_io, or_self, reported_io] at h
    split at h
    · cases h
    · cases h
      exact ⟨⟨i, rfl⟩, [], [], by simp⟩
  · rw [framed_else hn, reported_else hn, reported_io, if_neg (by simp), or_self] at h
    cases h
    exact ⟨⟨_, rfl⟩, _, _, rfl⟩

-- a frame with a wrong checksum
example : reported (framed (.other "data was corrupted".toList)) = some (.io ⟨.other, "Other error: `data was corrupted`".toList⟩) := by
  decide +kernel

example : IsIo (.io ⟨.other, "Other error: `data was corrupted`".toList⟩) ∧
    TextHas (Error.io ⟨.other, "Other error: `data was corrupted`".toList⟩).text (Error.other "data was corrupted".toList).text :=
  C97_text (.other "data was corrupted".toList) _ (.inr (by decide +kernel))

/-- C97. Errors of input and output reach the caller as they are. (`_partial`: the others do not, `C97_kind_violated`.) -/
theorem C97_kind_partial (e : Error) (h : IsIo e) (hn : ¬ NotYet e) : reported e = some e ∧ reported (framed e) = some e := by
  obtain ⟨i, rfl⟩ := h
  rw [notYet_io] at hn
  rw [framed_io, reported_io, if_neg hn]
  exact ⟨rfl, rfl⟩

example : reported (.io ⟨.other, "unknown zone".toList⟩) = some (.io ⟨.other, "unknown zone".toList⟩) :=
  (C97_kind_partial _ ⟨_, rfl⟩ (by rintro ⟨_, h⟩; cases h)).1

/-- C97, negation: no other error is reported as what it is. A caller that looks for `Error::Driver` finds none. -/
theorem C97_kind_violated (e : Error) (h : ¬ IsIo e) : reported e ≠ some e ∧ reported (framed e) ≠ some e := by
  rw [framed_else h, reported_else h, reported_io, if_neg (by simp), and_self_iff]
  intro h2
  exact h ⟨_, (Option.some.inj h2).symm⟩

-- a number that is too long
example : ¬ IsIo (.driver .overflow) := by rintro ⟨_, h⟩; cases h
example : reported (.driver .overflow) = some (.io ⟨.other, "Driver error: `Varint overflows a 64-bit integer.`".toList⟩) := by decide +kernel

theorem raised_notYet (lib : Texts) (x : Err) : ¬ NotYet (raised lib x) := by
  rintro ⟨t, h⟩
  cases x with
  | other tag =>
    simp only [raised] at h
    split at h <;> cases h
  | _ => cases h

/-- C97: what the reader finds decides: the caller waits exactly if the reader needs more bytes, gets a packet exactly if the reader
has one, and otherwise an error with the text of the cause. -/
theorem C97_outcome {α : Type} (lib : Texts) (r : Res α) :
    (outcome lib r = none ↔ r = .more) ∧
    (∀ a, outcome lib r = some (.packet a) ↔ ∃ rest, r = .ok a rest) ∧
    (∀ x rest, r = .err x rest → ∃ e, outcome lib r = some (.error e) ∧ IsIo e ∧ TextHas e.text (raised lib x).text) ∧
    (∀ e, outcome lib r = some (.error e) → ∃ x rest, r = .err x rest) := by
  cases r with
  | ok a rest => exact ⟨by simp [outcome], by simp [outcome], fun _ _ h => (by cases h), fun _ h => (by simp [outcome] at h)⟩
  | panic => exact ⟨by simp [outcome], by simp [outcome], fun _ _ h => (by cases h), fun _ h => (by simp [outcome] at h)⟩
  | more =>
    have h : outcome lib (Res.more : Res α) = none := by
      rw [outcome, ((C97_waiting wouldBlock).1).mpr ⟨_, rfl⟩]; rfl
    rw [h]
    exact ⟨by simp, by simp, fun _ _ h => (by cases h), fun _ h => (by simp at h)⟩
  | err x rest =>
    cases hr : reported (raised lib x) with
    | none => exact absurd ((C97_waiting _).1.mp hr) (raised_notYet lib x)
    | some e =>
      have h : outcome lib (Res.err x rest : Res α) = some (.error e) := by rw [outcome, hr]; rfl
      have ht := C97_text _ e (.inl hr)
      rw [h]
      exact ⟨by simp, by simp, fun y s h2 => (by cases h2; exact ⟨e, rfl, ht⟩), fun _ _ => ⟨x, rest, rfl⟩⟩

example : (∃ e, outcome ⟨[], []⟩ (Res.err (.unknownPacket 255) [7] : Res Packet) = some (.error e) ∧ IsIo e ∧
    TextHas e.text (raised ⟨[], []⟩ (.unknownPacket 255)).text) ∧ outcome ⟨[], []⟩ (Res.more : Res Packet) = none :=
  ⟨(C97_outcome ⟨[], []⟩ (Res.err (.unknownPacket 255) [7] : Res Packet)).2.2.1 _ _ rfl,
    (C97_outcome ⟨[], []⟩ (Res.more : Res Packet)).1.mpr rfl⟩

/-- Hexadecimal texts of different numbers differ. -/
theorem hex_inj : ∀ (n : Nat) {a b : Nat}, a < n → Nat.toDigits 16 a = Nat.toDigits 16 b → a = b := by
  have hd : ∀ x y : Fin 16, x.val.digitChar = y.val.digitChar → x = y := by decide +kernel
  have one : ∀ {a b : Nat}, a < 16 → ¬ b < 16 → Nat.toDigits 16 a ≠ Nat.toDigits 16 b := by
    intro a b ha hb h
    rw [Nat.toDigits_of_lt_base ha, Nat.toDigits_of_base_le (by decide) (by omega)] at h
    have h1 := congrArg List.length h
    have h2 := Nat.length_toDigits_pos (b := 16) (n := b / 16)
    simp at h1
  intro n
  induction n with
  | zero => intro a b h; omega
  | succ n ih =>
    intro a b hn h
    by_cases ha : a < 16
    · by_cases hb : b < 16
      · rw [Nat.toDigits_of_lt_base ha, Nat.toDigits_of_lt_base hb] at h
        have := hd ⟨a, ha⟩ ⟨b, hb⟩ (by simpa using h)
        simpa using this
      · exact absurd h (one ha hb)
    · by_cases hb : b < 16
      · exact absurd h.symm (one hb ha)
      · rw [Nat.toDigits_of_base_le (by decide) (by omega), Nat.toDigits_of_base_le (n := b) (by decide) (by omega)] at h
        obtain ⟨h1, h2⟩ := List.append_inj' h (by simp)
        have h3 := ih (by omega) h1
        have h4 := hd ⟨a % 16, Nat.mod_lt _ (by decide)⟩ ⟨b % 16, Nat.mod_lt _ (by decide)⟩ (by simpa using h2)
        have h5 : a % 16 = b % 16 := by simpa using h4
        omega

/-- C97: a message with a number that is not known is reported with this number, which the text lets one read off. -/
theorem C97_unknown (lib : Texts) (env : Env) (info : TransportInfo) (k : Nat) (h64 : k < 2 ^ 64) (hk : k ∉ knownPackets) (rest : Bytes) :
    ∃ e, outcome lib (parsePacket env info (putUvarint k ++ rest)) = some (.error e) ∧ TextHas e.text (Nat.toDigits 16 k) ∧
      ∀ j rest', j < 2 ^ 64 → j ∉ knownPackets → outcome lib (parsePacket env info (putUvarint j ++ rest')) = some (.error e) → j = k := by
  have h1 : ∀ j rest', j < 2 ^ 64 → j ∉ knownPackets →
      outcome lib (parsePacket env info (putUvarint j ++ rest')) = some (.error (.io ⟨.other, (Error.driver (.unknownPacket j)).text⟩)) := by
    intro j rest' h1 h2
    rw [C08_unknown_packet env info j h1 h2 rest', outcome, raised, reported_else (by rintro ⟨_, h⟩; cases h)]
    rfl
  obtain ⟨A, B, C, D, ht⟩ : ∃ A B C D : Str, ∀ j, (Error.driver (.unknownPacket j)).text = A ++ (B ++ Nat.toDigits 16 j ++ C) ++ D :=
    ⟨_, _, _, _, fun _ => rfl⟩
  obtain ⟨E, F, hi⟩ : ∃ E F : Str, ∀ t, (Error.io ⟨.other, t⟩).text = E ++ t ++ F := ⟨_, _, fun _ => rfl⟩
  refine ⟨_, h1 k rest h64 hk, ⟨E ++ (A ++ B), C ++ D ++ F, ?_⟩, ?_⟩
  · rw [hi, ht]
    simp only [List.append_assoc]
  · intro j rest' h2 h3 h4
    rw [h1 j rest' h2 h3] at h4
    have h5 : (Error.driver (.unknownPacket j)).text = (Error.driver (.unknownPacket k)).text := by
      injection h4 with h; injection h with h; injection h with h; injection h
    rw [ht, ht] at h5
    exact hex_inj (j + 1) (by omega) (List.append_cancel_right (List.append_cancel_left (List.append_cancel_left (by
      simpa only [List.append_assoc] using List.append_cancel_right h5 : A ++ (B ++ (Nat.toDigits 16 j ++ C)) = A ++ (B ++ (Nat.toDigits 16 k ++ C))))))

example : (255 : Nat) < 2 ^ 64 ∧ 255 ∉ knownPackets := by decide

theorem cons_split {c : Char} : ∀ {a a' b b' : Str}, c ∉ a → c ∉ a' → a ++ c :: b = a' ++ c :: b' → a = a' ∧ b = b'
  | [], [], _, _, _, _, h => ⟨rfl, by simpa using h⟩
  | [], y :: _, _, _, _, h2, h => by
    simp only [List.nil_append, List.cons_append, List.cons.injEq] at h
    exact absurd (h.1 ▸ List.mem_cons_self) h2
  | x :: _, [], _, _, h1, _, h => by
    simp only [List.nil_append, List.cons_append, List.cons.injEq] at h
    exact absurd (h.1 ▸ List.mem_cons_self) h1
  | x :: a, y :: a', b, b', h1, h2, h => by
    simp only [List.cons_append, List.cons.injEq] at h
    obtain ⟨rfl, h⟩ := h
    obtain ⟨rfl, rfl⟩ := cons_split (fun m => h1 (List.mem_cons_of_mem _ m)) (fun m => h2 (List.mem_cons_of_mem _ m)) h
    exact ⟨rfl, rfl⟩

/-- C97. From the text of an exception one can read off its name, its code and its message, if the name has no parenthesis in it. (`_partial`:
otherwise one cannot, and the stack trace is not in the text, `C97_server_violated`.) -/
theorem C97_server_partial (e e' : ServerError) (h1 : '(' ∉ e.name.toList) (h2 : '(' ∉ e'.name.toList)
    (h : (Error.server e).text = (Error.server e').text) : e.name = e'.name ∧ e.code = e'.code ∧ e.message = e'.message := by
  obtain ⟨A, B, D, ht⟩ : ∃ A B D : Str, ∀ e, (Error.server e).text =
      A ++ (B ++ e.name.toList ++ [' ', '('] ++ natChars e.code ++ [')', ':', ' '] ++ e.message.toList) ++ D := ⟨_, _, _, fun _ => rfl⟩
  rw [ht, ht] at h
  simp only [List.append_assoc] at h
  have h := List.append_cancel_left (List.append_cancel_left h)
  have key : ∀ {a a' b b' : Str}, '(' ∉ a → '(' ∉ a' → a ++ ([' ', '('] ++ b) = a' ++ ([' ', '('] ++ b') → a = a' ∧ b = b' := by
    intro a a' b b' g1 g2 g
    have e1 : ∀ (x y : Str), x ++ ([' ', '('] ++ y) = (x ++ [' ']) ++ '(' :: y := by intro x y; simp
    rw [e1, e1] at g
    obtain ⟨g3, g4⟩ := cons_split (by simpa using g1) (by simpa using g2) g
    exact ⟨List.append_cancel_right g3, g4⟩
  obtain ⟨h3, h4⟩ := key h1 h2 h
  have no : ∀ n : Nat, ')' ∉ natChars n := by
    intro n hm
    have := natChars_digits n _ hm
    revert this
    decide
  have e2 : ∀ (x y : Str), x ++ ([')', ':', ' '] ++ y) = x ++ ')' :: ([':', ' '] ++ y) := by intro x y; rfl
  rw [e2, e2] at h4
  obtain ⟨h5, h6⟩ := cons_split (no _) (no _) h4
  have h7 := congrArg digitsVal h5
  rw [digitsVal_natChars, digitsVal_natChars] at h7
  have h6 := List.append_cancel_right (List.append_cancel_left h6)
  exact ⟨String.toList_inj.mp h3, h7, String.toList_inj.mp h6⟩

example : '(' ∉ "DB::Exception".toList ∧ (Error.server ⟨60, "DB::Exception", "Table t does not exist", ""⟩).text =
    "Server error: `ERROR DB::Exception (60): Table t does not exist`".toList := by decide +kernel

/-- C97, negation: different exceptions can have the same text. -/
theorem C97_server_violated :
    (Error.server ⟨2, "A (1): b", "c", ""⟩).text = (Error.server ⟨1, "A", "b (2): c", ""⟩).text ∧
    ∀ code name message t t', (Error.server ⟨code, name, message, t⟩).text = (Error.server ⟨code, name, message, t'⟩).text :=
  ⟨by decide +kernel, fun _ _ _ _ _ => rfl⟩

/-- Each number is larger than the one before. -/
def ascending : Nat → List Nat → Bool
  | _, [] => true
  | n, a :: l => decide (n < a) && ascending a l

theorem ascending_above : ∀ (n : Nat) (l : List Nat), ascending n l = true → ∀ x ∈ l, n < x
  | _, [], _, _, h => by cases h
  | n, a :: l, h, x, hx => by
    simp only [ascending, Bool.and_eq_true, decide_eq_true_eq] at h
    rcases List.mem_cons.mp hx with rfl | hx
    · exact h.1
    · exact Nat.lt_trans h.1 (ascending_above a l h.2 x hx)

theorem ascending_apart : ∀ (n : Nat) (l : List Nat), ascending n l = true → l.Pairwise (· < ·)
  | _, [], _ => .nil
  | n, a :: l, h => by
    simp only [ascending, Bool.and_eq_true, decide_eq_true_eq] at h
    exact .cons (ascending_above a l h.2) (ascending_apart a l h.2)

/-- C97: a code has one name in the table. -/
theorem C97_codes (a b : String × Nat) (ha : a ∈ codes) (hb : b ∈ codes) (h : a.2 = b.2) : a = b := by
  have hs : ascending 0 (codes.map (·.2)) = true := by decide +kernel
  have key := ascending_apart _ _ hs
  obtain ⟨i, hi, rfl⟩ := List.mem_iff_getElem.mp ha
  obtain ⟨j, hj, rfl⟩ := List.mem_iff_getElem.mp hb
  have h' : (codes.map (·.2))[i]'(by simpa using hi) = (codes.map (·.2))[j]'(by simpa using hj) := by simpa using h
  rcases Nat.lt_trichotomy i j with g | g | g
  · have := List.pairwise_iff_getElem.mp key i j (by simpa using hi) (by simpa using hj) g
    omega
  · subst g; rfl
  · have := List.pairwise_iff_getElem.mp key j i (by simpa using hj) (by simpa using hi) g
    omega

-- 60 is the code of a table that does not exist
example : ("UNKNOWN_TABLE", 60) ∈ codes := by decide +kernel

-- the unit tests of /repo/src/errors/mod.rs:218-231
example : (Error.other "Somth went wrong.".toList).text = "Other error: `Somth went wrong.`".toList := by decide +kernel
example : (Error.other "Somth went wrong.".toList).toIo.text = "Other error: `Somth went wrong.`".toList := by decide +kernel

end CH.Props
