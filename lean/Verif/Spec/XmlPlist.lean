import Verif.Model.XmlPlist
import Verif.Spec.Base64
import Verif.Spec.Utf8

/-!
# Specification: XML property lists

Which texts are property lists, and which object each describes: `IsPlist f64 text object`. The names of characters are those of the XML
recommendation. Every definition is a condition on a text; only the type of the objects is the one of the model.
-/

namespace Keramics.Spec.Plist

open XmlPlist (Object)

/-- A character of XML ([2] of the recommendation): no control character but tab, line feed and carriage return, and not U+FFFE or U+FFFF. -/
def IsChar (c : Char) : Prop := c = '\t' ∨ c = '\n' ∨ c = '\r' ∨ (0x20 ≤ c.toNat ∧ c.toNat ≠ 0xfffe ∧ c.toNat ≠ 0xffff)

/-- White space ([3]). -/
def IsSpace (c : Char) : Prop := c = ' ' ∨ c = '\t' ∨ c = '\n' ∨ c = '\r'

/-- A digit. -/
def IsDigit (c : Char) : Prop := '0'.toNat ≤ c.toNat ∧ c.toNat ≤ '9'.toNat

/-- The number of a character is in one of these ranges. -/
def Within (ranges : List (Nat × Nat)) (c : Char) : Prop := ∃ r ∈ ranges, r.1 ≤ c.toNat ∧ c.toNat ≤ r.2

/-- The first character of a name ([4]): `:`, `_`, a letter, or in one of the ranges of the recommendation. -/
def NameStart (c : Char) : Prop :=
  c = ':' ∨ c = '_' ∨ Within [('A'.toNat, 'Z'.toNat), ('a'.toNat, 'z'.toNat), (0xc0, 0xd6), (0xd8, 0xf6), (0xf8, 0x2ff), (0x370, 0x37d), (0x37f, 0x1fff),
    (0x200c, 0x200d), (0x2070, 0x218f), (0x2c00, 0x2fef), (0x3001, 0xd7ff), (0xf900, 0xfdcf), (0xfdf0, 0xfffd), (0x10000, 0xeffff)] c

/-- A character of a name ([4a]). -/
def NameChar (c : Char) : Prop :=
  NameStart c ∨ c = '-' ∨ c = '.' ∨ IsDigit c ∨ Within [(0xb7, 0xb7), (0x300, 0x36f), (0x203f, 0x2040)] c

/-- White space or nothing. -/
def Spaces (t : List Char) : Prop := ∀ c ∈ t, IsSpace c

/-- White space, at least one character. -/
def Gap (t : List Char) : Prop := t ≠ [] ∧ Spaces t

/-- A name ([5]). -/
def Name (t : List Char) : Prop := ∃ c u, t = c :: u ∧ NameStart c ∧ ∀ x ∈ u, NameChar x

/-- The equals sign, with white space around it ([25]). -/
def Equals (t : List Char) : Prop := ∃ a b, Spaces a ∧ Spaces b ∧ t = a ++ '=' :: b

/-- Characters without markup ([14]). -/
def Text (t : List Char) : Prop := (∀ c ∈ t, IsChar c ∧ c ≠ '<' ∧ c ≠ '&') ∧ ¬ "]]>".toList <:+: t

/-- A reference to an entity or a character ([66] to [68]). -/
inductive Reference : List Char → Prop
  | entity (n : List Char) : Name n → Reference ('&' :: n ++ [';'])
  | decimal (d : List Char) : d ≠ [] → (∀ c ∈ d, IsDigit c) → Reference ('&' :: '#' :: d ++ [';'])
  | hexadecimal (d : List Char) : d ≠ [] → (∀ c ∈ d, IsDigit c ∨ Within [('a'.toNat, 'f'.toNat), ('A'.toNat, 'F'.toNat)] c) →
      Reference ('&' :: '#' :: 'x' :: d ++ [';'])

/-- What is between the quotes of the value of an attribute ([10]). -/
inductive Quoted (q : Char) : List Char → Prop
  | nil : Quoted q []
  | char (c : Char) (t : List Char) : IsChar c → c ≠ '<' → c ≠ '&' → c ≠ q → Quoted q t → Quoted q (c :: t)
  | reference (r t : List Char) : Reference r → Quoted q t → Quoted q (r ++ t)

/-- A text in quotes of one or the other kind. -/
def InQuotes (inside : Char → List Char → Prop) (t : List Char) : Prop := ∃ q u, (q = '"' ∨ q = '\'') ∧ inside q u ∧ t = q :: u ++ [q]

/-- The attributes of a tag, each after white space. -/
inductive Attributes : List Char → Prop
  | nil : Attributes []
  | cons (g n e v t : List Char) : Gap g → Name n → Equals e → InQuotes Quoted v → Attributes t → Attributes (g ++ n ++ e ++ v ++ t)

/-- A start tag, or the tag of an empty element. -/
def Tag (start close : String) (t : List Char) : Prop := ∃ a s, Attributes a ∧ Spaces s ∧ t = start.toList ++ a ++ s ++ close.toList

/-- An end tag. -/
def EndTag (start : String) (t : List Char) : Prop := ∃ s, Spaces s ∧ t = start.toList ++ s ++ ['>']

/-- A comment ([15]): `--` is not in it, nor `-` at its end. -/
def Comment (t : List Char) : Prop :=
  ∃ u, (∀ c ∈ u, IsChar c) ∧ ¬ "--".toList <:+: u ++ ['-'] ∧ t = "<!--".toList ++ u ++ "-->".toList

/-- A processing instruction ([16]), of which the name must not start with `xml` in any case: this is stricter than the recommendation. -/
def Instruction (t : List Char) : Prop :=
  ∃ n u, Name n ∧ (∀ x m l v, n = x :: m :: l :: v → ¬ (x ∈ ['X', 'x'] ∧ m ∈ ['M', 'm'] ∧ l ∈ ['L', 'l'])) ∧
    (∀ c ∈ u.head?, IsSpace c) ∧ (∀ c ∈ u, IsChar c) ∧ ¬ "?>".toList <:+: u ∧ t = "<?".toList ++ n ++ u ++ "?>".toList

/-- A CDATA section ([18] to [21]). -/
def Cdata (t : List Char) : Prop :=
  ∃ u, (∀ c ∈ u, IsChar c) ∧ ¬ "]]>".toList <:+: u ∧ t = "<![CDATA[".toList ++ u ++ "]]>".toList

/-- Comments, processing instructions and white space ([27]). -/
inductive Misc : List Char → Prop
  | nil : Misc []
  | space (c : Char) (t : List Char) : IsSpace c → Misc t → Misc (c :: t)
  | comment (u t : List Char) : Comment u → Misc t → Misc (u ++ t)
  | instruction (u t : List Char) : Instruction u → Misc t → Misc (u ++ t)

/-- The number of a version of XML ([26]). -/
def Version (t : List Char) : Prop := ∃ d, d ≠ [] ∧ (∀ c ∈ d, IsDigit c) ∧ t = "1.".toList ++ d

/-- The name of an encoding ([81]). -/
def Encoding (t : List Char) : Prop :=
  ∃ c u, t = c :: u ∧ Within [('A'.toNat, 'Z'.toNat), ('a'.toNat, 'z'.toNat)] c ∧
    ∀ x ∈ u, Within [('A'.toNat, 'Z'.toNat), ('a'.toNat, 'z'.toNat)] x ∨ IsDigit x ∨ x = '.' ∨ x = '_' ∨ x = '-'

/-- White space, a word, the equals sign, and a value in quotes. -/
def Setting (word : String) (value : List Char → Prop) (t : List Char) : Prop :=
  ∃ g e v, Gap g ∧ Equals e ∧ InQuotes (fun _ => value) v ∧ t = g ++ word.toList ++ e ++ v

/-- Nothing, or what the condition says. -/
def Maybe (p : List Char → Prop) (t : List Char) : Prop := t = [] ∨ p t

/-- The XML declaration ([23]). -/
def Declaration (t : List Char) : Prop :=
  ∃ v e a s, Setting "version" Version v ∧ Maybe (Setting "encoding" Encoding) e ∧
    Maybe (Setting "standalone" fun u => u = "yes".toList ∨ u = "no".toList) a ∧ Spaces s ∧ t = "<?xml".toList ++ v ++ e ++ a ++ s ++ "?>".toList

/-- The document type declaration of property lists. -/
def Doctype (t : List Char) : Prop :=
  ∃ g₁ g₂ g₃ p g₄ y s, Gap g₁ ∧ Gap g₂ ∧ Gap g₃ ∧ InQuotes (fun _ u => u = "-//Apple//DTD PLIST 1.0//EN".toList) p ∧ Gap g₄ ∧
    InQuotes (fun _ u => u = "http://www.apple.com/DTDs/PropertyList-1.0.dtd".toList) y ∧ Spaces s ∧
    t = "<!DOCTYPE".toList ++ g₁ ++ "plist".toList ++ g₂ ++ "PUBLIC".toList ++ g₃ ++ p ++ g₄ ++ y ++ s ++ ">".toList

/-- What comes before the root element. -/
def Prolog (t : List Char) : Prop :=
  ∃ d m x, Maybe Declaration d ∧ Misc m ∧ Maybe (fun u => ∃ y n, Doctype y ∧ Misc n ∧ u = y ++ n) x ∧ t = d ++ m ++ x

/-- An element of this name with a content. -/
def ElementOf (label : String) (content : List Char → Prop) (t : List Char) : Prop :=
  ∃ s c e, Tag ("<" ++ label) ">" s ∧ content c ∧ EndTag ("</" ++ label) e ∧ t = s ++ c ++ e

mutual
  /-- An element of an object, whatever is in it. -/
  inductive Element : List Char → Prop
    | mixed (label : String) (s c e : List Char) : label ∈ ["array", "data", "date", "real", "integer", "string"] → Tag ("<" ++ label) ">" s → Content c →
        EndTag ("</" ++ label) e → Element (s ++ c ++ e)
    | boolean (label : String) (t : List Char) : label ∈ ["false", "true"] → Tag ("<" ++ label) "/>" t → Element t
    | dict (s c e : List Char) : Tag "<dict" ">" s → Pairs c → EndTag "</dict" e → Element (s ++ c ++ e)

  /-- Text, with elements of objects, references, CDATA sections, processing instructions and comments in it. -/
  inductive Content : List Char → Prop
    | text (t : List Char) : Text t → Content t
    | element (t u w : List Char) : Text t → Element u → Content w → Content (t ++ u ++ w)
    | other (t u w : List Char) : Text t → (Reference u ∨ Cdata u ∨ Instruction u ∨ Comment u) → Content w → Content (t ++ u ++ w)

  /-- The same with pairs of a key and an element of an object instead of elements. -/
  inductive Pairs : List Char → Prop
    | text (t : List Char) : Text t → Pairs t
    | pair (t s k e b u w : List Char) : Text t → Tag "<key" ">" s → Content k → EndTag "</key" e → Text b → Element u → Pairs w →
        Pairs (t ++ (s ++ k ++ e ++ b ++ u) ++ w)
    | other (t u w : List Char) : Text t → (Reference u ∨ Cdata u ∨ Instruction u ∨ Comment u) → Pairs w → Pairs (t ++ u ++ w)
end

/-- Bytes in base64: the white space between the characters is skipped, and nothing after padding is looked at. -/
def DataText (c : List Char) (bytes : List Byte) : Prop :=
  ∃ cs rest, ((c.flatMap fun x => Utf8.encode x.toNat).filter fun b => ! Base64.isSpace b) = cs ++ rest ∧ (∀ b ∈ cs, Base64.isChar b = true) ∧
    (rest = [] ∨ rest.head? = some Base64.pad) ∧ bytes = Base64.bytesOf cs

/-- The number that digits stand for. -/
def decimal (d : List Char) : Nat := d.foldl (fun n c => n * 10 + (c.toNat - '0'.toNat)) 0

/-- A decimal number with or without a sign, of 64 bits. -/
def IntegerText (c : List Char) (n : Int) : Prop :=
  -2 ^ 63 ≤ n ∧ n < 2 ^ 63 ∧ ∃ d, d ≠ [] ∧ (∀ x ∈ d, IsDigit x) ∧ ((c = d ∨ c = '+' :: d) ∧ n = decimal d ∨ c = '-' :: d ∧ n = - (decimal d : Int))

mutual
  /-- An element of an object, and the object that it describes. What texts are floating-point values is a parameter. -/
  inductive IsObject (f64 : List Char → Option (BitVec 64)) : List Char → Object → Prop
    | array (t : List Char) (c s e : List Char) (l : List Object) : Tag "<array" ">" s → IsItems f64 c l → EndTag "</array" e → t = s ++ c ++ e →
        IsObject f64 t (.array l)
    | false (t : List Char) : Tag "<false" "/>" t → IsObject f64 t (.boolean false)
    | true (t : List Char) : Tag "<true" "/>" t → IsObject f64 t (.boolean true)
    | data (t : List Char) (b : List Byte) : ElementOf "data" (fun c => Content c ∧ DataText c b) t → IsObject f64 t (.data b)
    | dict (t : List Char) (c s e : List Char) (l : List (List Char × Object)) : Tag "<dict" ">" s → IsPairs f64 c l → EndTag "</dict" e → t = s ++ c ++ e →
        IsObject f64 t (.dictionary l)
    | real (t : List Char) (v : BitVec 64) : ElementOf "real" (fun c => Content c ∧ f64 c = some v) t → IsObject f64 t (.floatingPoint v)
    | integer (t : List Char) (n : Int) : ElementOf "integer" (fun c => IntegerText c n) t → IsObject f64 t (.integer n)
    | string (t s : List Char) : ElementOf "string" (fun c => Text c ∧ c = s) t → IsObject f64 t (.string s)

  /-- Elements of objects with text before, between and after them. -/
  inductive IsItems (f64 : List Char → Option (BitVec 64)) : List Char → List Object → Prop
    | nil (t : List Char) : Text t → IsItems f64 t []
    | cons (t u w : List Char) (v : Object) (l : List Object) : Text t → IsObject f64 u v → IsItems f64 w l → IsItems f64 (t ++ u ++ w) (v :: l)

  /-- Pairs of a key and an element of an object with text before, between and after them. -/
  inductive IsPairs (f64 : List Char → Option (BitVec 64)) : List Char → List (List Char × Object) → Prop
    | nil (t : List Char) : Text t → IsPairs f64 t []
    | cons (t s k e b u w : List Char) (v : Object) (l : List (List Char × Object)) : Text t → Tag "<key" ">" s → Text k → EndTag "</key" e → Text b →
        IsObject f64 u v → IsPairs f64 w l → IsPairs f64 (t ++ (s ++ k ++ e ++ b ++ u) ++ w) ((k, v) :: l)
end

/-- A property list, and its object: the last in the root element, or none. -/
def IsPlist (f64 : List Char → Option (BitVec 64)) (t : List Char) (o : Object) : Prop :=
  ∃ m p s c e n l, Maybe (· = [Char.ofNat 0xfeff]) m ∧ Prolog p ∧ Tag "<plist" ">" s ∧ IsItems f64 c l ∧ EndTag "</plist" e ∧ Misc n ∧
    t = m ++ p ++ s ++ c ++ e ++ n ∧ o = l.getLast?.getD .none

end Keramics.Spec.Plist
