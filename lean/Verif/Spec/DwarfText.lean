import Verif.Model.DwarfText
/-
Vocabulary for the output of the tool for debug information (C121): readable variables, and the grammar of JSON (RFC 8259).
-/
namespace Bean
namespace Spec

/-- A text without blanks, as identifiers, digests and most paths. -/
def Unbroken (s : Str) : Prop := ' ' ∉ s

/-- A variable whose name is an identifier (or `[anonymous]`). -/
structure ReadableVar (v : DwVar) : Prop where
  name : Unbroken v.name ∧ '(' ∉ v.name
  hash : Unbroken v.hash

/-- The facts of a variable that are printed. -/
structure SameVar (v w : DwVar) : Prop where
  name : v.name = w.name
  value : v.value = w.value
  type : v.type = w.type
  size : v.size = w.size
  external : v.external = w.external
  hash : v.hash = w.hash

/-- White space of JSON. -/
def isSpace (c : Char) : Bool := c == ' ' || c == '\n' || c == '\r' || c == '\t'

def Spaces (s : Str) : Prop := ∀ c ∈ s, isSpace c = true

/-- Digits, at least one. -/
def SomeDigits (s : Str) : Prop := s ≠ [] ∧ ∀ c ∈ s, c.isDigit = true

/-- Numbers of JSON. -/
structure NumberParts where
  sign : Str
  int : Str
  frac : Str
  exp : Str

structure NumberParts.Valid (p : NumberParts) : Prop where
  sign : p.sign = [] ∨ p.sign = ['-']
  int : SomeDigits p.int ∧ (p.int = ['0'] ∨ ∃ c r, p.int = c :: r ∧ c ≠ '0')
  frac : p.frac = [] ∨ ∃ d, SomeDigits d ∧ p.frac = '.' :: d
  exp : p.exp = [] ∨ ∃ e s d, (e = 'e' ∨ e = 'E') ∧ (s = [] ∨ s = ['-'] ∨ s = ['+']) ∧ SomeDigits d ∧ p.exp = e :: (s ++ d)

def JsonNumber (s : Str) : Prop := ∃ p : NumberParts, p.Valid ∧ s = p.sign ++ (p.int ++ (p.frac ++ p.exp))

/-- Characters between the quotation marks of a text of JSON. -/
inductive JsonChars : Str → Prop where
  | nil : JsonChars []
  | plain {c : Char} {s : Str} : 0x20 ≤ c.toNat → c ≠ '"' → c ≠ '\\' → JsonChars s → JsonChars (c :: s)
  | escape {c : Char} {s : Str} : c ∈ ['"', '\\', '/', 'b', 'f', 'n', 'r', 't'] → JsonChars s → JsonChars ('\\' :: c :: s)
  | unicode {a b c d : Char} {s : Str} : (∀ x ∈ [a, b, c, d], (digitValue x).isSome = true) → JsonChars s → JsonChars ('\\' :: 'u' :: a :: b :: c :: d :: s)

def JsonString (s : Str) : Prop := ∃ t, JsonChars t ∧ s = '"' :: (t ++ ['"'])

inductive JsonKind where
  | value | elements | members

/-- Values, elements of arrays and members of objects. -/
inductive JsonPart : JsonKind → Str → Prop where
  | word {s : Str} : s = "null".toList ∨ s = "true".toList ∨ s = "false".toList → JsonPart .value s
  | number {s : Str} : JsonNumber s → JsonPart .value s
  | string {s : Str} : JsonString s → JsonPart .value s
  | emptyArray {w : Str} : Spaces w → JsonPart .value ('[' :: (w ++ [']']))
  | array {s : Str} : JsonPart .elements s → JsonPart .value ('[' :: (s ++ [']']))
  | emptyObject {w : Str} : Spaces w → JsonPart .value ('{' :: (w ++ ['}']))
  | object {s : Str} : JsonPart .members s → JsonPart .value ('{' :: (s ++ ['}']))
  | element {a s b : Str} : Spaces a → JsonPart .value s → Spaces b → JsonPart .elements (a ++ (s ++ b))
  | elementMore {a s b t : Str} : Spaces a → JsonPart .value s → Spaces b → JsonPart .elements t → JsonPart .elements (a ++ (s ++ (b ++ ',' :: t)))
  | member {a k b c s d : Str} : Spaces a → JsonString k → Spaces b → Spaces c → JsonPart .value s → Spaces d →
      JsonPart .members (a ++ (k ++ (b ++ ':' :: (c ++ (s ++ d)))))
  | memberMore {a k b c s d t : Str} : Spaces a → JsonString k → Spaces b → Spaces c → JsonPart .value s → Spaces d → JsonPart .members t →
      JsonPart .members (a ++ (k ++ (b ++ ':' :: (c ++ (s ++ (d ++ ',' :: t))))))

/-- A text that a program for JSON accepts. -/
def JsonText (s : Str) : Prop := ∃ a v b, Spaces a ∧ JsonPart .value v ∧ Spaces b ∧ s = a ++ (v ++ b)

/-- The end of a text can be told from the text, and the texts are different. -/
def SelfDelimiting (quote : Str → Str) : Prop := ∀ x y s t, quote x ++ s = quote y ++ t → x = y ∧ s = t

end Spec
end Bean
