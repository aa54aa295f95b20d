import Verif.Lemmas.Keys
import Verif.Props.Native

namespace CH.Props
open CH CH.Spec CH.Keys

/-- C76. Maps keyed by anything but integers and strings (dates, addresses, enums, decimals, floats, booleans, lists, ...): every
column of such a type is received without an error, and then reading any of its cells panics, except those of empty maps. The
theorem covers all such types, so that the exception that `C76_load_partial` makes for keys is exactly where the claim fails. -/
theorem C76_other_keys_violated (known : Tz → Bool) (tz : Tz) (k v : SqlType) (vs : List Value) (b : Bytes)
    (h : Stream tz (.map k v) vs b) (hf : Flat (.map k v)) (hm : MapFree k) (hv : KeysHash v) (hn : Nameable known (.map k v))
    (hk : ¬ Hashes k) (hb : b.length < 2 ^ 56) :
    ∃ c, (∀ rest, loadData known tz (SqlType.name (.map k v)) vs.length (b ++ rest) = .ok c rest) ∧ c.sqlType = .map k v ∧
      c.len = .ok vs.length ∧
      ∀ (i : Nat) ks xs, vs[i]? = some (.map k v ks xs) → (ks ≠ [] → c.at i = .panic) ∧ (ks = [] → c.at i = .ok (.map k v [] [])) := by
  have hbody : Body tz (.map k v) vs b := by
    cases h with
    | none => exact common_nil hf
    | some _ hp hbody =>
      cases common_prefix hp hf
      exact hbody
  obtain ⟨c, h1, h2, h3, h4⟩ := load_unhashed hbody hf hm hv hk hb
  refine ⟨c, fun rest => by rw [loadData, resolve_name tz hn]; exact h1 rest, h2, h3, fun i ks xs hx => ?_⟩
  rw [h4 i ks xs hx]
  exact ⟨fun h0 => if_neg h0, fun h0 => if_pos h0⟩

/-- A row with one entry, keyed by any date. -/
theorem exDated (d x : UInt8) (y : UInt8) : Stream [] (.map .date (.num .u8))
    [.map .date (.num .u8) [.date (d.toNat + 256 * x.toNat)] [.num .u8 y.toNat]] ([1, 0, 0, 0, 0, 0, 0, 0] ++ [d, x] ++ [y]) :=
  .some (p := []) (by simp) (.map (a := []) (.scalar trivial) (.scalar trivial))
    (.map (parts := [[(.date (d.toNat + 256 * x.toNat), .num .u8 y.toNat)]])
      (.cons (b := [1, 0, 0, 0, 0, 0, 0, 0]) (bs := []) ⟨rfl, rfl⟩ .nil)
      (.plain trivial (.cons (b := [d, x]) (bs := []) ⟨rfl, by simp [base256]⟩ .nil))
      (.plain trivial (.cons (b := [y]) (bs := []) ⟨rfl, rfl, by simp [base256]⟩ .nil)) rfl
      (fun i v p hv hp => by
        match i with
        | 0 =>
          cases hv
          cases hp
          refine ⟨_, _, rfl, rfl, by simp, by simp, ?_⟩
          intro j q w hq hw
          match j with
          | 0 =>
            cases hq
            cases hw
            exact ⟨[], [], rfl, by simp⟩
        | i + 1 => simp at hv))

/-- Whatever the date, the column arrives and its only cell cannot be read. -/
example (d x y : UInt8) : ∃ c, loadData (fun _ => true) [] (SqlType.name (.map .date (.num .u8))) 1
    ([1, 0, 0, 0, 0, 0, 0, 0] ++ [d, x] ++ [y] ++ []) = .ok c [] ∧ c.at 0 = .panic := by
  obtain ⟨c, h1, -, -, h2⟩ := C76_other_keys_violated (fun _ => true) [] _ _ _ _ (exDated d x y) ⟨trivial, trivial⟩ trivial trivial
    ⟨trivial, trivial, trivial⟩ id (by simp)
  exact ⟨c, h1 [], (h2 0 _ _ rfl).1 (by simp)⟩

end CH.Props
