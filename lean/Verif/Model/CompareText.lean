import Verif.Model.CompareRun
/-
Texts of the comparison of versions (tools/compare.py:126-206, 281-293), without styles, as lists of the pieces that are put together.
-/
namespace Bean
namespace CompareText

/-- Number and size of symbols, as written by the program for differences. -/
structure Amount where
  count : Nat
  size : Nat
deriving DecidableEq, Repr

/-- Values for a category of sections: total, and the members `added` and `removed` of `changed-internal` and `changed-extended`. -/
structure Details where
  total : Amount
  intAdded : Amount
  intRemoved : Amount
  extAdded : Amount
  extRemoved : Amount
deriving DecidableEq, Repr

/-- Members of the result of the program for differences that are shown. -/
inductive Entry where
  | patchable (value : Bool)
  | buildId (added removed : Str)
  | category (name : Str) (d : Details)
deriving DecidableEq, Repr

/-- What is known about the debug symbols of a version (compare.py:246-256); `debug` and `incomplete` for `debug` and a true `debug-incomplete`. -/
structure HashInfo where
  hashes : Hashes
  debug : Bool
  incomplete : Bool
  comment : Option Str
deriving DecidableEq, Repr

/-- `"{count}: {size}B".format_map(…)` -/
def amountText (a : Amount) : Str := Nat.toDigits 10 a.count ++ (": ".toList ++ (Nat.toDigits 10 a.size ++ ['B']))

/-- compare.py:127 -/
def detailChanged (d : Details) : Bool := d.extAdded.size != 0 || d.extRemoved.size != 0

/-- A line that is shown for a size other than zero. -/
def amountLine (before after : String) (a : Amount) : List Str :=
  if a.size ≠ 0 then [before.toList ++ (amountText a ++ after.toList)] else []

/-- compare.py:126-143 `add_details` with the verbosity `v`. -/
def addDetails (v : Nat) (name : Str) (d : Details) : List Str :=
  (if v > 1 ∨ (v = 1 ∧ detailChanged d = true) then ["\n.".toList ++ name] else []) ++
  (if v > 1 then
    ["\n   ".toList ++ amountText d.total] ++
    (if v > 3 then amountLine "\n(+ " ")" d.intAdded ++ amountLine "\n(- " ")" d.intRemoved else []) ++
    (if v > 2 then amountLine "\n + " "" d.extAdded ++ amountLine "\n - " "" d.extRemoved else [])
  else [])

/-- compare.py:152-164: text of the verdict; `same` if a version is compared with itself. -/
def verdictText (same : Bool) (ok : Bool) : Str :=
  if same then '(' :: ((if ok then "update" else "restart").toList ++ [')']) else (if ok then "update" else "restart").toList

/-- compare.py:166-174: build identifiers. -/
def buildIdLines (v : Nat) (added removed : Str) : List Str :=
  (if v > 1 ∨ (v = 1 ∧ added ≠ removed) then ["\n.build-id".toList] else []) ++
  (if v > 1 then ["\n ".toList ++ added] ++ (if v > 2 ∧ added ≠ removed then ["\n ".toList ++ removed] else []) else [])

/-- compare.py:151-177: one member. -/
def cellEntry (v : Nat) (same success : Bool) : Entry → List Str
  | .patchable value => [verdictText same (value && success)]
  | .buildId a r => buildIdLines v a r
  | .category name d => addDetails v name d

/-- compare.py:195-196: short names of hashes. -/
def hashName (k : Str) : Str :=
  if k = "datatypes".toList then "dt".toList else if k = "functions".toList then "fn".toList else k

/-- compare.py:194-201: a hash, and the one of the base if it differs. -/
def hashLines (v : Nat) (base : Hashes) (h : Str × Str) : List Str :=
  ["\n ".toList ++ (hashName h.1 ++ ':' :: h.2)] ++
  (match base.lookup h.1 with
    | some w => if v > 2 ∧ w ≠ h.2 then ["\n ".toList ++ (hashName h.1 ++ ':' :: w)] else []
    | none => [])

/-- compare.py:184-192: mark for missing or incomplete debug symbols. -/
def debugTitle (i : HashInfo) : Str :=
  "\n.debug".toList ++ (if !i.debug then " *" else if i.incomplete then " !" else "").toList

/-- compare.py:182-203: hashes of debug symbols. -/
def debugLines (v : Nat) (success : Bool) (base obj : HashInfo) : List Str :=
  if obj.hashes.isEmpty then []
  else
    (if v > 1 ∨ (v = 1 ∧ success = false) then [debugTitle obj] else []) ++
    (if v > 1 then
      obj.hashes.flatMap (hashLines v base.hashes) ++
      (match obj.comment with
        | some c => ["\n.comment:\n ".toList ++ c]
        | none => [])
    else [])

/-- compare.py:150 -/
def hashSuccess (base obj : HashInfo) : Bool := base.hashes.isEmpty || obj.hashes.isEmpty || dictEq base.hashes obj.hashes

/-- compare.py:146-206 `build_cell`. -/
def buildCell (v : Nat) (same : Bool) (base obj : HashInfo) (result : List Entry) : List Str :=
  if result.flatMap (cellEntry v same (hashSuccess base obj)) = [] then ["error".toList]
  else if v ≥ 1 then
    result.flatMap (cellEntry v same (hashSuccess base obj)) ++ (debugLines v (hashSuccess base obj) base obj ++ ["\n".toList])
  else result.flatMap (cellEntry v same (hashSuccess base obj))

/-! ### Summary -/

/-- `round(100 * k / n)`: to the nearest number, halves to the even one. (The quotient of floating-point numbers is taken as exact, the result is the
same for up to 10^12 versions.) -/
def percent (k n : Nat) : Nat :=
  let q := 100 * k / n
  let r := 100 * k % n
  if 2 * r < n then q else if 2 * r > n then q + 1 else if q % 2 = 0 then q else q + 1

/-- compare.py:282: the modes of comparison. -/
def modeText : Nat → String
  | 0 => "default (extended) comparison"
  | 1 => "internal ID comparison of writable section"
  | 2 => "internal ID comparison of all except executable sections"
  | _ => "internal ID comparison"

/-- compare.py:283-289 -/
def settingsOf (s : CompareOptions) : List Str :=
  [(modeText (internalLevel s)).toList] ++ (if s.dependencies then ["recusive symbol dependency checks".toList] else []) ++
  (if s.relocations then ["internal relocation resolving".toList] else []) ++ (if s.dbgsym then ["(external?) debug symbols".toList] else [])

/-- compare.py:290-293 -/
def settingsText (l : List Str) : Str :=
  match l.getLast? with
  | none => []
  | some last =>
    if l.length > 2 then " with ".toList ++ (", ".toList.intercalate l.dropLast ++ (" and ".toList ++ last))
    else " with ".toList ++ " and ".toList.intercalate l

/-- compare.py:281-293: the sentence, without markup, for `k` of `n` versions. -/
def sentence (s : CompareOptions) (name : Str) (k n : Nat) : Str :=
  "For ".toList ++ (name ++ (", ".toList ++ (Nat.toDigits 10 k ++ (" of ".toList ++ (Nat.toDigits 10 n ++ (" versions (".toList ++
    (Nat.toDigits 10 (percent k n) ++ ("%) can be live patched".toList ++ settingsText (settingsOf s)))))))))

end CompareText
end Bean
