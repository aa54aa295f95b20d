import Verif.Model.Column

/-!
Model of `load_data` (/repo/src/types/column/factory.rs:58-116) and the `load` functions of the column types.

The code interleaves parsing the type name with reading bytes. The model splits this: `resolve` turns a name into a
`Plan` (a tree whose leaves may be "unsupported" or "the parser panics here"), `Plan.load` reads the bytes and meets those
leaves at the moment the code would. The outcomes are the same.
-/

namespace CH

/-- What `load_data` will do for a type name. -/
inductive Plan where
  | num (t : NumTy)
  | string
  | fixed (n : Nat)
  | date (tz : Tz)
  | datetime (tz : Tz)
  | dt64 (p : Nat) (tz : Tz)
  | ip (k : IpKind)
  | nullable (p : Plan)
  | array (p : Plan)
  | map (k v : Plan)
  | decimal (p s : Nat) (nb : NoBits)
  | enum (w : EnumW) (items : List (Str × Int))
  | simpleAgg (f : AggFunc) (p : Plan)
  | lowCard (p : Plan)
  /-- `return Err(..)` -/
  | bad (e : Err)
  /-- the name parser panics -/
  | crash
deriving DecidableEq, Repr

/-! Inner names are shorter than the name they come from (termination of `resolve`). -/

theorem dropBytes_length {n : Nat} {s r : Str} (h : dropBytes n s = some r) : r.length ≤ s.length := by
  fun_induction dropBytes n s with
  | case1 => simp at h; simp [h]
  | case2 => simp at h
  | case3 n c cs hc ih => have := ih h; simp only [List.length_cons]; omega
  | case4 => simp at h

theorem takeBytes_length {n : Nat} {s r : Str} (h : takeBytes n s = some r) : r.length ≤ s.length := by
  fun_induction takeBytes n s generalizing r with
  | case1 => simp at h; simp [h]
  | case2 => simp at h
  | case3 n c cs hc ih =>
    simp only [Option.map_eq_some_iff] at h
    obtain ⟨q, hq, rfl⟩ := h
    have := ih hq; simp only [List.length_cons]; omega
  | case4 => simp at h

theorem dropBytes_length_lt {n : Nat} {s r : Str} (h : dropBytes (n + 1) s = some r) : r.length < s.length := by
  cases s with
  | nil => simp [dropBytes] at h
  | cons c cs =>
    simp only [dropBytes] at h
    split at h
    · have := dropBytes_length h; simp only [List.length_cons]; omega
    · simp at h

theorem sliceBytes_length {s r : Str} {a b : Nat} (h : sliceBytes s (a + 1) b = some r) : r.length < s.length := by
  unfold sliceBytes at h
  split at h
  · split at h
    · rename_i p hp
      have := takeBytes_length hp
      have := dropBytes_length_lt h
      omega
    · simp at h
  · simp at h

theorem trim_length (s : Str) : (trim s).length ≤ s.length := by
  unfold trim
  have h1 := (List.dropWhile_sublist isWs (l := s)).length_le
  have h2 := (List.dropWhile_sublist isWs (l := (s.dropWhile isWs).reverse)).length_le
  simp only [List.length_reverse] at *
  omega

theorem trimMatches_length (p : Char → Bool) (s : Str) : (trimMatches p s).length ≤ s.length := by
  unfold trimMatches
  have h1 := (List.dropWhile_sublist p (l := s)).length_le
  have h2 := (List.dropWhile_sublist p (l := (s.dropWhile p).reverse)).length_le
  simp only [List.length_reverse] at *
  omega

theorem parseNullable_length {s r : Str} (h : parseNullable s = .ok (some r)) : r.length < s.length := by
  unfold parseNullable at h
  split at h
  · split at h
    · simp at h
    · rename_i inner hi
      split at h
      · simp at h
      · simp at h; subst h; exact sliceBytes_length hi
  · simp at h

theorem parseArray_length {s r : Str} (h : parseArray s = .ok (some r)) : r.length < s.length := by
  unfold parseArray at h
  split at h
  · split at h
    · simp at h
    · rename_i inner hi
      simp at h; subst h; exact sliceBytes_length hi
  · simp at h

theorem parseMap_length {s k v : Str} (h : parseMap s = .ok (some (k, v))) :
    k.length < s.length ∧ v.length < s.length := by
  unfold parseMap at h
  split at h
  · split at h
    · simp at h
    · rename_i body hb
      have hl := sliceBytes_length hb
      split at h
      · simp at h
      · split at h
        · rename_i k' v' hk hv
          simp at h
          obtain ⟨rfl, rfl⟩ := h
          have := takeBytes_length hk
          have := dropBytes_length hv
          have := trim_length k'
          have := trim_length v'
          omega
        · simp at h
  · simp at h

theorem parseSimpleAgg_length {s r : Str} {f : AggFunc} (h : parseSimpleAgg s = some (f, r)) : r.length < s.length := by
  unfold parseSimpleAgg at h
  split at h
  · rename_i hp
    simp only [Bool.and_eq_true] at hp
    have hl : s.length ≥ 24 := by
      have := List.isPrefixOf_iff_prefix.mp hp.1
      have := this.length_le
      simpa using this
    simp only at h
    split at h
    · simp at h
    · split at h
      · simp at h
      · simp at h
        rw [← h.2]
        have h1 := trim_length ((trimMatches (fun c => c == '(' || c == ')') (s.drop 23)).drop (‹Nat› + 1))
        have h2 := trimMatches_length (fun c => c == '(' || c == ')') (s.drop 23)
        simp only [List.length_drop] at *
        omega
  · simp at h

theorem lcLo_length {n m : Nat} {s r : Str} (h : lcLo n s = some (m, r)) : r.length ≤ s.length := by
  fun_induction lcLo n s with
  | case1 => simp at h; simp [h]
  | case2 => simp at h; simp [← h.2]
  | case3 lo c cs h1 h2 ih => have := ih h; simp only [List.length_cons]; omega
  | case4 => simp at h

theorem lcHi_length {s r : Str} (h : lcHi s = some (some r)) : r.length ≤ s.length := by
  fun_induction lcHi s with
  | case1 => simp at h
  | case2 => simp at h; simp [← h]
  | case3 c cs h1 h2 ih => have := ih h; simp only [List.length_cons]; omega
  | case4 => simp at h

theorem parseLowCard_length {s r : Str} (h : parseLowCard s = .ok (some r)) : r.length < s.length := by
  unfold parseLowCard at h
  split at h
  · rename_i hp
    have hl : s.length ≥ 14 := by
      have := (List.isPrefixOf_iff_prefix.mp hp).length_le
      simpa using this
    split at h
    · simp at h
    · simp at h
    · rename_i body hlo
      have h1 := lcLo_length hlo
      split at h
      · simp at h
      · simp at h
      · rename_i revInner hhi
        simp at h
        have h2 := lcHi_length hhi
        have h3 := trim_length revInner.reverse
        rw [← h]
        simp only [List.length_drop, List.length_cons, List.length_reverse] at *
        omega
  · simp at h

/-- The inner names in a dispatch result. -/
def Head.inners : Head → List Str
  | .nullable i => [i]
  | .array i => [i]
  | .map k v => [k, v]
  | .simpleAgg _ i => [i]
  | .lowCard i => [i]
  | _ => []

theorem lookupSimple_inners {s : Str} {l : List (Str × Head)} {h : Head} (hl : lookupSimple s l = some h) :
    ∃ n, (n, h) ∈ l := by
  induction l with
  | nil => simp [lookupSimple] at hl
  | cons a l ih =>
    obtain ⟨n, h'⟩ := a
    simp only [lookupSimple] at hl
    split at hl
    · simp at hl; subst hl; exact ⟨n, by simp⟩
    · obtain ⟨m, hm⟩ := ih hl; exact ⟨m, by simp [hm]⟩

theorem simpleNames_inners : ∀ p ∈ simpleNames, p.2.inners = [] := by decide

theorem dispatch_inners {s : Str} {h : Head} (hd : dispatch s = .ok h) : ∀ i ∈ h.inners, i.length < s.length := by
  unfold dispatch at hd
  split at hd
  · rename_i h' hl
    obtain ⟨n, hn⟩ := lookupSimple_inners hl
    simp at hd; subst hd
    have := simpleNames_inners _ hn
    simp only at this
    simp [this]
  · split at hd
    · simp at hd
    · simp at hd
    · rename_i inner hi
      simp at hd; subst hd; simpa [Head.inners] using parseNullable_length hi
    · split at hd
      · simp at hd
      · simp at hd
      · simp at hd; subst hd; simp [Head.inners]
      · split at hd
        · simp at hd
        · simp at hd
        · rename_i inner hi
          simp at hd; subst hd; simpa [Head.inners] using parseArray_length hi
        · split at hd
          · simp at hd
          · simp at hd
          · rename_i k v hi
            simp at hd; subst hd
            have := parseMap_length hi
            simpa [Head.inners] using this
          · split at hd
            · simp at hd; subst hd; simp [Head.inners]
            · split at hd
              · simp at hd; subst hd; simp [Head.inners]
              · split at hd
                · simp at hd; subst hd; simp [Head.inners]
                · split at hd
                  · simp at hd; subst hd; simp [Head.inners]
                  · split at hd
                    · simp at hd; subst hd; simp [Head.inners]
                    · split at hd
                      · rename_i f inner hi
                        simp at hd; subst hd; simpa [Head.inners] using parseSimpleAgg_length hi
                      · split at hd
                        · simp at hd
                        · simp at hd
                        · rename_i inner hi
                          simp at hd; subst hd; simpa [Head.inners] using parseLowCard_length hi
                        · simp at hd; subst hd; simp [Head.inners]

/-- The name analysis of `load_data`, /repo/src/types/column/factory.rs:58-116, with `get_timezone` (542-547): `known` is the zone
database, `tz` the connection's zone. -/
def resolve (known : Tz → Bool) (tz : Tz) (s : Str) : Plan :=
  match _h : dispatch s with
  | .panic => .crash
  | .err e => .bad e
  | .ok (.num t) => .num t
  | .ok .string => .string
  | .ok .date => .date tz
  | .ok (.ip k) => .ip k
  | .ok (.nullable i) => .nullable (resolve known tz i)
  | .ok (.fixedString n) => .fixed n
  | .ok (.array i) => .array (resolve known tz i)
  | .ok (.map k v) => .map (resolve known tz k) (resolve known tz v)
  | .ok (.decimal p sc nb) => .decimal p sc nb
  | .ok (.enum w items) => .enum w items
  | .ok (.datetime none) => .datetime tz
  | .ok (.datetime (some z)) => if known z then .datetime z else .bad (.other "timezone")
  | .ok (.dt64 p none) => .dt64 p tz
  | .ok (.dt64 p (some z)) => if known z then .dt64 p z else .bad (.other "timezone")
  | .ok (.simpleAgg f i) => .simpleAgg f (resolve known tz i)
  | .ok (.lowCard i) => .lowCard (resolve known tz i)
  | .ok .unsupported => .bad (.other "Unsupported column type")
termination_by s.length
decreasing_by
  all_goals
    have := dispatch_inners _h
    simp only [Head.inners, List.mem_cons, List.not_mem_nil, or_false, forall_eq_or_imp, forall_eq] at this
    first | exact this | exact this.1 | exact this.2

/-! ### Reading the data -/

/-- Split bytes into `n` little-endian numbers of `w` bytes (the memory of a freshly read `List<T>`). -/
def splitLE (w : Nat) : Nat → Bytes → List Nat
  | 0, _ => []
  | n + 1, bs => getLE (bs.take w) :: splitLE w n (bs.drop w)

/-- `VectorColumnData::<T>::load` (numeric.rs:163-170), `DateColumnData::load` (date.rs:60-73), `DateTime64ColumnData::load`
(datetime64.rs:28-43): `size` numbers read in one go. -/
def loadNums (w size : Nat) : Reader (List Nat) := do
  let _ ← alloc (size * w)
  let b ← readN (size * w)
  Reader.pure (splitLE w size b)

/-- `for _ in 0..n`: read `n` items. -/
def readMany (p : Reader α) : Nat → Reader (List α)
  | 0 => Reader.pure []
  | n + 1 => do
    let a ← p
    let as ← readMany p n
    Reader.pure (a :: as)

/-- `IndexType::from_flags`, /repo/src/types/column/low_cardinality.rs:36-47. -/
def IdxTy.fromFlags (flags : Nat) : Option IdxTy :=
  match flags % 256 with
  | 0 => some .u8
  | 1 => some .u16
  | 2 => some .u32
  | 3 => some .u64
  | _ => none

/-- `load_data` after name analysis; the readers are nullable.rs:24-35, fixed_string.rs:42-52, array.rs:24-42, map.rs:24-48,
decimal.rs:44-65, enums.rs:38-50, 280-292, ip.rs:274-282, string.rs:38-46, simple_agg_func.rs:22-32,
low_cardinality.rs:189-201, 220-272. Each reader first asks for the memory of the rows announced; for strings that is 24 bytes a
row for the pointers (string_pool.rs:54-61) and, with the first string, 80 bytes a row for the text (99-104). Where the number
of bytes does not even fit 64 bits a debug build panics too, at the multiplication. -/
def Plan.load : Plan → Nat → Reader Col
  | .num t, size => do
    let xs ← loadNums t.width size
    Reader.pure (.num t xs)
  | .string, size => do
    let _ ← alloc (size * 24)
    let xs ← readMany (readBytesLP (size * 80)) size
    Reader.pure (.str xs)
  | .fixed n, size => do
    let _ ← alloc (size * n)
    let xs ← readMany (readN n) size
    Reader.pure (.fixed n xs.flatten)
  | .date tz, size => do
    let xs ← loadNums 2 size
    Reader.pure (.date tz xs)
  | .datetime tz, size => do
    let xs ← loadNums 4 size
    Reader.pure (.datetime tz xs)
  | .dt64 p tz, size => do
    let xs ← loadNums 8 size
    Reader.pure (.dt64 p tz xs)
  | .ip k, size => do
    let _ ← alloc (size * k.size)
    let b ← readN (size * k.size)
    Reader.pure (.ip k b)
  | .nullable p, size => do
    let _ ← alloc size
    let nulls ← readN size
    let c ← p.load size
    Reader.pure (.nullable nulls c)
  | .array p, size => do
    let offs ← loadNums 8 size
    let c ← p.load (lastOff offs)
    Reader.pure (.array offs c)
  | .map k v, size => do
    let offs ← loadNums 8 size
    let kc ← k.load (lastOff offs)
    let vc ← v.load (lastOff offs)
    Reader.pure (.map offs kc vc)
  | .decimal p s nb, size => do
    let xs ← loadNums nb.width size
    Reader.pure (.decimal p s nb xs)
  | .enum w items, size => do
    let xs ← loadNums w.width size
    Reader.pure (.enum w items xs)
  | .simpleAgg f p, size => do
    let c ← p.load size
    Reader.pure (.simpleAgg f c)
  | .lowCard p, size =>
    if size = 0 then do
      let d ← p.load 0
      let ix ← loadNums 1 0
      Reader.pure (.lowCard .u8 ix d none)
    else do
      let version ← readLE 8
      if version ≠ 1 then Reader.fail (.other "Invalid low cardinality version")
      else do
        let flags ← readLE 8
        match IdxTy.fromFlags flags with
        | none => Reader.fail (.other "Invalid index serialization version value")
        | some ity =>
          if flags / 2 ^ 8 % 2 ≠ 0 then Reader.fail (.other "Global dictionary is not supported.")
          else if flags / 2 ^ 9 % 2 = 0 then Reader.fail (.other "HasAdditionalKeysBit is missing.")
          else do
            let n ← readLE 8
            let d ← p.load n
            let rows ← readLE 8
            let ix ← loadNums ity.width rows
            if flags = lcFlags ity then Reader.pure (.lowCard ity ix d none) else Reader.panic
  | .bad e, _ => Reader.fail e
  | .crash, _ => Reader.panic

/-- `load_data`, /repo/src/types/column/factory.rs:58-116. -/
def loadData (known : Tz → Bool) (tz : Tz) (name : Str) (size : Nat) : Reader Col :=
  (resolve known tz name).load size

end CH
