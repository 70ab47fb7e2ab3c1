import Verif.HiveStats

/-! # What the properties of statistics mean -/

set_option autoImplicit false

namespace Recap.Hive.Spec

/-- `Says s k v`: the statistics `s` say that the quantity `k` of a column is `v`. -/
inductive Says : Stats → String → PyVal → Prop
  | longLow {l h c n} : Says (.long l h c n) "low" l
  | longHigh {l h c n} : Says (.long l h c n) "high" h
  | longCardinality {l h c n} : Says (.long l h c n) "cardinality" c
  | longNulls {l h c n} : Says (.long l h c n) "null_count" n
  | doubleLow {l h c n} : Says (.double l h c n) "low" l
  | doubleHigh {l h c n} : Says (.double l h c n) "high" h
  | doubleCardinality {l h c n} : Says (.double l h c n) "cardinality" c
  | doubleNulls {l h c n} : Says (.double l h c n) "null_count" n
  | dateLow {l h c n} : Says (.date (some l) h c n) "low" l
  | dateHigh {l h c n} : Says (.date l (some h) c n) "high" h
  | dateCardinality {l h c n} : Says (.date l h c n) "cardinality" c
  | dateNulls {l h c n} : Says (.date l h c n) "null_count" n
  | decimalLow {l h c n} : Says (.decimal (some l) h c n) "low" l
  | decimalHigh {l h c n} : Says (.decimal l (some h) c n) "high" h
  | decimalCardinality {l h c n} : Says (.decimal l h c n) "cardinality" c
  | decimalNulls {l h c n} : Says (.decimal l h c n) "null_count" n
  | stringAverage {a m c n} : Says (.string a m c n) "average_length" a
  | stringMax {a m c n} : Says (.string a m c n) "max_length" m
  | stringCardinality {a m c n} : Says (.string a m c n) "cardinality" c
  | stringNulls {a m c n} : Says (.string a m c n) "null_count" n
  | booleanTrue {t f n} : Says (.boolean t f n) "true_count" t
  | booleanFalse {t f n} : Says (.boolean t f n) "false_count" f
  | booleanNulls {t f n} : Says (.boolean t f n) "null_count" n
  | binaryAverage {a m n} : Says (.binary a m n) "average_length" a
  | binaryMax {a m n} : Says (.binary a m n) "max_length" m
  | binaryNulls {a m n} : Says (.binary a m n) "null_count" n
  | otherNulls {n} : Says (.other n) "null_count" n

/-- `Latest cs name k v`: of the statistics for the column `name`, the last ones that say anything about `k` say `v`. -/
def Latest (cs : List ColumnStats) (name k : String) (v : PyVal) : Prop :=
  ∃ before s after, cs = before ++ ⟨name, some s⟩ :: after ∧ Says s k v ∧
    ∀ s', ⟨name, some s'⟩ ∈ after → ∀ w, ¬Says s' k w

/-- The column at this place has statistics: it is the last of its name. -/
def LastOfName (cols : List HColumn) (i : Nat) (name : String) : Prop :=
  ∀ j c, i < j → cols[j]? = some c → c.name ≠ name

end Recap.Hive.Spec
