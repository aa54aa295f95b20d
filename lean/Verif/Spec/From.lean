import Verif.Model.From

/-! What columns built from Rust values should give back, stated without the columns. -/

namespace CH.Spec

/-- The Rust type an element is read back as. -/
def reads : Base → Target
  | .num t => .num t
  | .text => .text
  | .bytes => .bytes
  | .ip k => .ip k
  | .date => .date
  | .time => .time
  | .decimal => .decimal
  | .enum w => .enum w

/-- The Rust type a vector of elements is read back as, where there is one. -/
def vecReads : Base → Option Target
  | .num t => some (.vecNum t)
  | .text => some .vecText
  | .date => some .vecDate
  | .time => some .vecTime
  | .enum w => some (.vecEnum w)
  | _ => none

/-- The column type that goes with a Rust type; that of decimals depends on the values. -/
def declared : Base → Option SqlType
  | .num t => some (.num t)
  | .text | .bytes => some .string
  | .ip k => some (.ip k)
  | .date => some .date
  | .time => some .chrono
  | .enum w => some (.enum w [])
  | .decimal => none

/-- The column type can represent the element: numbers, enums and decimals in the range of their Rust type, addresses of the right
length, days of 1970-01-01 to 2149-06-06, whole seconds of 1970 to 2106. -/
def Stored : (b : Base) → b.El → Prop
  | .num t, x => x < 256 ^ t.width
  | .text, _ => True
  | .bytes, _ => True
  | .ip k, o => o.length = k.size
  | .date, d => 0 ≤ d ∧ d < 65536
  | .time, t => 0 ≤ t.1 ∧ t.1 < 2 ^ 32 ∧ t.2.1 = 0
  | .decimal, d => -(2 : Int) ^ 63 ≤ d.underlying ∧ d.underlying < 2 ^ 63
  | .enum w, x => -(2 : Int) ^ (8 * w.width - 1) ≤ x ∧ x < 2 ^ (8 * w.width - 1)

/-- The value read is the element stored. Decimals keep their number and scale. -/
def Back : (b : Base) → b.El → RustVal → Prop
  | .num _, x, r => r = .num x
  | .text, s, r => r = .text s
  | .bytes, b, r => r = .bytes b
  | .ip _, o, r => r = .ip o
  | .date, d, r => ∃ n : Nat, r = .date n ∧ (n : Int) = d
  | .time, t, r => r = .time t.1 t.2.1 t.2.2
  | .decimal, d, r => ∃ d', r = .decimal d' ∧ d'.underlying = d.underlying ∧ d'.scale = d.scale
  | .enum _, x, r => r = .enum x

/-- Decimals of one column have one scale. -/
def SameScale : (b : Base) → List b.El → Prop
  | .decimal, ds => ∀ d ∈ ds, ∀ e ∈ ds, d.scale = e.scale
  | _, _ => True

/-- Rust types of map keys: text and integers (`f32`, `f64` have no `Hash`). -/
def KeyBase : Base → Prop
  | .text => True
  | .num t => t ≠ .bool ∧ t ≠ .f32 ∧ t ≠ .f64
  | _ => False

/-- The form of an address or UUID on the wire: `a.b.c.d` backwards, IPv6 as it is, each half of a UUID backwards. -/
inductive OnWire : IpKind → Bytes → Bytes → Prop
  | v4 {a b c d} : OnWire .v4 [a, b, c, d] [d, c, b, a]
  | v6 {o : Bytes} : o.length = 16 → OnWire .v6 o o
  | uuid {x y : Bytes} : x.length = 8 → y.length = 8 → OnWire .uuid (x ++ y) (x.reverse ++ y.reverse)

/-- Consecutive wire forms. -/
inductive AllOnWire (k : IpKind) : List Bytes → Bytes → Prop
  | nil : AllOnWire k [] []
  | cons {o w os ws} : OnWire k o w → AllOnWire k os ws → AllOnWire k (o :: os) (w ++ ws)

/-- `r` is the instant `t` (both in nanoseconds since 1970) with the digits beyond `p` dropped. -/
def Drops (p : Nat) (t r : Int) : Prop := r ≤ t ∧ t - r < 10 ^ (9 - p) ∧ (10 : Int) ^ (9 - p) ∣ r

end CH.Spec
