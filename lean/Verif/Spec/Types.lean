import Verif.Model.Load

/-! Specifications for type names. -/

namespace CH.Spec

/-- The plan a type stands for, given the connection's zone. Decimals up to nine digits are 32 bits wide. -/
def planOf (tz : Tz) : SqlType → Plan
  | .num t => .num t
  | .string => .string
  | .fixedString n => .fixed n
  | .date => .date tz
  | .datetime => .datetime tz
  | .chrono => .datetime tz
  | .dt64 p z => .dt64 p z
  | .ip k => .ip k
  | .nullable t => .nullable (planOf tz t)
  | .array t => .array (planOf tz t)
  | .lowCard t => .lowCard (planOf tz t)
  | .decimal p s => .decimal p s (if p ≤ 9 then .n32 else .n64)
  | .enum w items => .enum w items
  | .simpleAgg f t => .simpleAgg f (planOf tz t)
  | .map k v => .map (planOf tz k) (planOf tz v)

/-- Text that can stand between single quotes unescaped. -/
def plainText (s : Str) : Prop := ∀ c ∈ s, c ≠ '\'' ∧ c ≠ '\\'

/-- Range of the numbers of an enum of the given width. -/
def enumRange : EnumW → Int → Prop
  | .w8, v => -128 ≤ v ∧ v ≤ 127
  | .w16, v => -32768 ≤ v ∧ v ≤ 32767

/-- Types without parameters. -/
def Atomic : SqlType → Prop
  | .num _ | .string | .date | .datetime | .ip _ => True
  | _ => False

/-- Types whose name has no comma: allowed as map keys. -/
def KeyLike : SqlType → Prop
  | .num _ | .string | .fixedString _ | .date | .datetime | .ip _ => True
  | .nullable t => KeyLike t
  | .array t => KeyLike t
  | .lowCard t => KeyLike t
  | _ => False

/-- The types for which the written name is read back as the same type. -/
def Nameable (known : Tz → Bool) : SqlType → Prop
  | .num _ | .string | .date | .datetime | .ip _ => True
  | .chrono => False
  | .fixedString n => n < 2 ^ 64
  | .dt64 p z => p < 2 ^ 32 ∧ known z = true ∧ plainText z
  | .nullable t => Nameable known t ∧ ∀ u, t ≠ .nullable u
  | .array t => Nameable known t
  | .lowCard t => Nameable known t
  | .decimal p s => s ≤ p ∧ p ≤ 18
  | .enum w items => items ≠ [] ∧ ∀ it ∈ items, plainText it.1 ∧ enumRange w it.2
  | .simpleAgg _ t => Atomic t
  | .map k v => Nameable known k ∧ KeyLike k ∧ Nameable known v

/-- Escaping inside single quotes, as servers do it for quotes and backslashes. -/
def escapeQ : Str → Str
  | [] => []
  | c :: cs => if c = '\'' ∨ c = '\\' then '\\' :: c :: escapeQ cs else c :: escapeQ cs

/-- Decimal notation of an integer (from the standard library, independent of the model's printer). -/
def intText (v : Int) : Str := (toString v).toList

/-- One enum entry as a server announces it: `'name' = number`. -/
def enumEntry (it : Str × Int) : Str := '\'' :: (escapeQ it.1 ++ "' = ".toList ++ intText it.2)

/-- The entries of an enum, separated by `, `. -/
def enumEntries : List (Str × Int) → Str
  | [] => []
  | [a] => enumEntry a
  | a :: rest => enumEntry a ++ ", ".toList ++ enumEntries rest

/-- The type name a server announces for an enum. -/
def enumDecl : EnumW → List (Str × Int) → Str
  | .w8, items => "Enum8(".toList ++ enumEntries items ++ [')']
  | .w16, items => "Enum16(".toList ++ enumEntries items ++ [')']

/-- Keywords of wrapping types. -/
def wrapKeywords : List Str :=
  ["Nullable".toList, "FixedString".toList, "Array".toList, "Map".toList, "LowCardinality".toList,
   "SimpleAggregateFunction".toList]

/-- Type expressions: any text at the leaves. -/
inductive TypeExpr where
  | leaf (s : Str)
  | nullable (t : TypeExpr)
  | array (t : TypeExpr)
  | lowCard (t : TypeExpr)
  | fixedString (arg : Str)
  | map (key : Str) (t : TypeExpr)

/-- The text of a type expression. -/
def TypeExpr.text : TypeExpr → Str
  | .leaf s => s
  | .nullable t => "Nullable(".toList ++ t.text ++ [')']
  | .array t => "Array(".toList ++ t.text ++ [')']
  | .lowCard t => "LowCardinality(".toList ++ t.text ++ [')']
  | .fixedString a => "FixedString(".toList ++ a ++ [')']
  | .map k t => "Map(".toList ++ k ++ ", ".toList ++ t.text ++ [')']

/-- Leaves start with none of the wrapping keywords (also not after leading spaces); map keys are ASCII leaves without comma. -/
def TypeExpr.Sane : TypeExpr → Prop
  | .leaf s => ∀ k ∈ wrapKeywords, ¬ k <+: s ∧ ¬ k <+: trim s
  | .nullable t => t.Sane
  | .array t => t.Sane
  | .lowCard t => t.Sane
  | .fixedString _ => True
  | .map k t => (∀ kw ∈ wrapKeywords, ¬ kw <+: k ∧ ¬ kw <+: trim k) ∧ (∀ c ∈ k, c.toNat < 128 ∧ c ≠ ',') ∧ t.Sane

/-- A plan in which the name parser panics somewhere. -/
def crashes : Plan → Prop
  | .crash => True
  | .nullable p => crashes p
  | .array p => crashes p
  | .lowCard p => crashes p
  | .simpleAgg _ p => crashes p
  | .map k v => crashes k ∨ crashes v
  | _ => False

end CH.Spec
