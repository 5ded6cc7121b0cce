import Verif.Model.Base64
import Verif.Model.Vfs

/-!
# Model: XML property lists

The grammar is plist/xmlplist.pest; the crate `pest` makes a parser of it that is not in this tree. What a grammar means is modelled here after
its documentation: expressions are tried from left to right, the first alternative that matches is taken, repetitions take as much as they can,
a failed expression takes nothing, and every rule that is not silent gives a pair of its name, the text it took, and the pairs inside it. The rules
of internal and external document types cannot be reached from `plist_document`, and are not modelled. The depth of the nesting that the
stack allows is not modelled. A text is its Unicode characters.
-/

namespace Keramics.XmlPlist

/-- The rules that are not silent, xmlplist.pest, as far as they can be reached from `plist_document`. -/
inductive Rule where
  | equals | name | attribute | attributeValue | characterData | comment | processingInstructions | processingInstructionsData
  | processingInstructionsTarget | cdata | cdataSection | xmlDeclaration | versionNumber | versionInformation | miscellaneous
  | standaloneDocumentDeclaration | characterReference | reference | entityReference | encodingDeclaration | encodingName
  | plistDocument | plistProlog | plistDoctypeDeclaration | plistExternalIdentifier | plistPublicIdentifierLiteral | plistSystemLiteral
  | plistElement | plistElementStartTag | plistElementEndTag | plistContent | plistObjectElement | plistKeyAndObjectElementPair
  | plistBooleanFalseElement | plistBooleanTrueElement | plistArrayElement | plistArrayElementStartTag | plistArrayElementEndTag
  | plistDataElement | plistDataElementStartTag | plistDataElementEndTag | plistDateElement | plistDateElementStartTag
  | plistDateElementEndTag | plistDictElement | plistDictElementStartTag | plistDictElementEndTag | plistDictContent
  | plistFloatingPointElement | plistFloatingPointElementStartTag | plistFloatingPointElementEndTag | plistIntegerElement
  | plistIntegerElementStartTag | plistIntegerElementEndTag | plistKeyElement | plistKeyElementStartTag | plistKeyElementEndTag
  | plistStringElement | plistStringElementStartTag | plistStringElementEndTag | eoi
deriving DecidableEq, Repr

/-- `pest::iterators::Pair`: the rule, the text, and the pairs inside. -/
inductive Pair where
  | node (rule : Rule) (text : List Char) (inner : List Pair)

/-- `as_rule`. -/
def Pair.rule : Pair → Rule
  | .node r _ _ => r

/-- `as_str`. -/
def Pair.text : Pair → List Char
  | .node _ t _ => t

/-- `into_inner`. -/
def Pair.inner : Pair → List Pair
  | .node _ _ l => l

/-- What an expression makes of a text: the text after it and its pairs, or it fails. A repetition that takes nothing never ends. -/
inductive Out where
  | ok (rest : List Char) (pairs : List Pair)
  | fail
  | endless

/-- An expression of a grammar. -/
abbrev Expr := List Char → Out

/-- `"…"`. -/
def lit (t : String) : Expr := fun s =>
  if t.toList <+: s then .ok (s.drop t.length) [] else .fail

/-- `'a'..'b' | …`: alternatives of single characters. -/
def one (ranges : List (Nat × Nat)) : Expr
  | [] => .fail
  | c :: s => if ranges.any fun r => r.1 ≤ c.toNat ∧ c.toNat ≤ r.2 then .ok s [] else .fail

/-- `p ~ q`. There is no rule for implicit white space. -/
def seq (p q : Expr) : Expr := fun s =>
  match p s with
  | .ok s' ps => match q s' with
    | .ok s'' qs => .ok s'' (ps ++ qs)
    | .fail => .fail
    | .endless => .endless
  | .fail => .fail
  | .endless => .endless

/-- `p | q`. -/
def alt (p q : Expr) : Expr := fun s =>
  match p s with
  | .fail => q s
  | o => o

/-- `p?`. -/
def opt (p : Expr) : Expr := fun s =>
  match p s with
  | .fail => .ok s []
  | o => o

/-- `!p`. -/
def neg (p : Expr) : Expr := fun s =>
  match p s with
  | .fail => .ok s []
  | .ok _ _ => .fail
  | .endless => .endless

/-- `p*` with a bound on the repetitions. -/
def starN (p : Expr) : Nat → Expr
  | 0, _ => .endless
  | n + 1, s => match p s with
    | .ok s' ps => match starN p n s' with
      | .ok s'' qs => .ok s'' (ps ++ qs)
      | .fail => .fail
      | .endless => .endless
    | .fail => .ok s []
    | .endless => .endless

/-- `p*`: if every repetition takes something there are at most as many as characters. -/
def star (p : Expr) : Expr := fun s => starN p (s.length + 1) s

/-- `p+`. -/
def plus (p : Expr) : Expr := seq p (star p)

/-- A rule that is not silent. -/
def rule (r : Rule) (p : Expr) : Expr := fun s =>
  match p s with
  | .ok s' ps => .ok s' [.node r (s.take (s.length - s'.length)) ps]
  | .fail => .fail
  | .endless => .endless

infixr:65 " ~~ " => seq
infixr:60 " // " => alt

/-- `EOI`. -/
def eoi : Expr := rule .eoi fun s => if s = [] then .ok [] [] else .fail

/-- `byte_order_mark`, xmlplist.pest:18-20. -/
def byteOrderMark : Expr := one [(0xfeff, 0xfeff)]

/-- The ranges of `character`, xmlplist.pest:22-29. -/
def characterRanges : List (Nat × Nat) := [(9, 9), (10, 10), (13, 13), (0x20, 0xd7ff), (0xe000, 0xfffd), (0x10000, 0x10ffff)]

/-- `character`, xmlplist.pest:22-29. -/
def character : Expr := one characterRanges

/-- `white_space`, xmlplist.pest:35-37. -/
def whiteSpace : Expr := plus (one [(0x20, 0x20), (9, 9), (10, 10), (13, 13)])

/-- `equals`, xmlplist.pest:31-33. -/
def equals : Expr := rule .equals (opt whiteSpace ~~ lit "=" ~~ opt whiteSpace)

/-- The ranges of `name_first_character`, xmlplist.pest:53-70. -/
def nameFirstRanges : List (Nat × Nat) :=
  [(0x3a, 0x3a), (0x41, 0x5a), (0x5f, 0x5f), (0x61, 0x7a), (0xc0, 0xd6), (0xd8, 0xf6), (0xf8, 0x2ff), (0x370, 0x37d), (0x37f, 0x1fff),
    (0x200c, 0x200d), (0x2070, 0x218f), (0x2c00, 0x2fef), (0x3001, 0xd7ff), (0xf900, 0xfdcf), (0xfdf0, 0xfffd), (0x10000, 0xeffff)]

/-- The ranges of `name_character`, xmlplist.pest:43-51. -/
def nameRanges : List (Nat × Nat) :=
  nameFirstRanges ++ [(0x2d, 0x2d), (0x2e, 0x2e), (0x30, 0x39), (0xb7, 0xb7), (0x300, 0x36f), (0x203f, 0x2040)]

/-- `name`, xmlplist.pest:39-41. -/
def name : Expr := rule .name (one nameFirstRanges ~~ star (one nameRanges))

/-- `entity_reference`, xmlplist.pest:321-323. -/
def entityReference : Expr := rule .entityReference (lit "&" ~~ name ~~ lit ";")

/-- `character_reference`, xmlplist.pest:312-315. -/
def characterReference : Expr := rule .characterReference
  ((lit "&#" ~~ plus (one [(0x30, 0x39)]) ~~ lit ";") // (lit "&#x" ~~ plus (one [(0x30, 0x39), (0x61, 0x66), (0x41, 0x46)]) ~~ lit ";"))

/-- `reference`, xmlplist.pest:317-319. -/
def reference : Expr := rule .reference (entityReference // characterReference)

/-- A quoted text of `attribute_value`, xmlplist.pest:89 and 90. -/
def quoted (q : String) : Expr := lit q ~~ star ((neg (lit "<" // lit "&" // lit q) ~~ character) // reference) ~~ lit q

/-- `attribute_value`, xmlplist.pest:88-91. -/
def attributeValue : Expr := rule .attributeValue (quoted "\"" // quoted "'")

/-- `attribute`, xmlplist.pest:84-86. -/
def attributeExpr : Expr := rule .attribute (name ~~ equals ~~ attributeValue)

/-- `entity_first_character`, xmlplist.pest:93-95. -/
def entityFirstCharacter : Expr := neg (lit "<" // lit "&") ~~ character

/-- `cdata_section_end`, xmlplist.pest:169-171. -/
def cdataSectionEnd : Expr := lit "]]>"

/-- `character_data`, xmlplist.pest:140-142. -/
def characterData : Expr := rule .characterData
  (neg (star (neg cdataSectionEnd ~~ entityFirstCharacter) ~~ cdataSectionEnd) ~~ star entityFirstCharacter)

/-- `comment`, xmlplist.pest:144-147. -/
def comment : Expr := rule .comment
  (lit "<!--" ~~ star ((neg (lit "-") ~~ character) // (lit "-" ~~ neg (lit "-") ~~ character)) ~~ lit "-->")

/-- `processing_instructions_data`, xmlplist.pest:153-155. -/
def processingInstructionsData : Expr := rule .processingInstructionsData (star (neg (lit "?>") ~~ character))

/-- `processing_instructions_target`, xmlplist.pest:157-159. -/
def processingInstructionsTarget : Expr := rule .processingInstructionsTarget
  (neg ((lit "X" // lit "x") ~~ (lit "M" // lit "m") ~~ (lit "L" // lit "l")) ~~ name)

/-- `processing_instructions`, xmlplist.pest:149-151. -/
def processingInstructions : Expr := rule .processingInstructions
  (lit "<?" ~~ processingInstructionsTarget ~~ opt (whiteSpace ~~ processingInstructionsData) ~~ lit "?>")

/-- `cdata`, xmlplist.pest:161-163. -/
def cdata : Expr := rule .cdata (star (neg cdataSectionEnd ~~ character))

/-- `cdata_section`, xmlplist.pest:165-167, with `cdata_section_start`, 173-175. -/
def cdataSection : Expr := rule .cdataSection (lit "<![CDATA[" ~~ cdata ~~ cdataSectionEnd)

/-- `version_number`, xmlplist.pest:181-183. -/
def versionNumber : Expr := rule .versionNumber (lit "1." ~~ plus (one [(0x30, 0x39)]))

/-- `version_information`, xmlplist.pest:185-188. -/
def versionInformation : Expr := rule .versionInformation
  (whiteSpace ~~ lit "version" ~~ equals ~~ ((lit "'" ~~ versionNumber ~~ lit "'") // (lit "\"" ~~ versionNumber ~~ lit "\"")))

/-- `encoding_name`, xmlplist.pest:366-368. -/
def encodingName : Expr := rule .encodingName
  (one [(0x41, 0x5a), (0x61, 0x7a)] ~~ star (one [(0x41, 0x5a), (0x61, 0x7a), (0x30, 0x39), (0x2e, 0x2e), (0x5f, 0x5f), (0x2d, 0x2d)]))

/-- `encoding_declaration`, xmlplist.pest:362-364. -/
def encodingDeclaration : Expr := rule .encodingDeclaration
  (whiteSpace ~~ lit "encoding" ~~ equals ~~ ((lit "\"" ~~ encodingName ~~ lit "\"") // (lit "'" ~~ encodingName ~~ lit "'")))

/-- `standalone_document_declaration`, xmlplist.pest:214-216. -/
def standaloneDocumentDeclaration : Expr := rule .standaloneDocumentDeclaration
  (whiteSpace ~~ lit "standalone" ~~ equals ~~
    ((lit "'" ~~ (lit "yes" // lit "no") ~~ lit "'") // (lit "\"" ~~ (lit "yes" // lit "no") ~~ lit "\"")))

/-- `xml_declaration`, xmlplist.pest:177-179. -/
def xmlDeclaration : Expr := rule .xmlDeclaration
  (lit "<?xml" ~~ versionInformation ~~ opt encodingDeclaration ~~ opt standaloneDocumentDeclaration ~~ opt whiteSpace ~~ lit "?>")

/-- `miscellaneous`, xmlplist.pest:190-192. -/
def miscellaneous : Expr := rule .miscellaneous (comment // processingInstructions // whiteSpace)

/-- `plist_public_identifier_literal`, xmlplist.pest:394-397. -/
def plistPublicIdentifierLiteral : Expr := rule .plistPublicIdentifierLiteral
  (lit "\"-//Apple//DTD PLIST 1.0//EN\"" // lit "'-//Apple//DTD PLIST 1.0//EN'")

/-- `plist_system_literal`, xmlplist.pest:399-402. -/
def plistSystemLiteral : Expr := rule .plistSystemLiteral
  (lit "\"http://www.apple.com/DTDs/PropertyList-1.0.dtd\"" // lit "'http://www.apple.com/DTDs/PropertyList-1.0.dtd'")

/-- `plist_external_identifier`, xmlplist.pest:390-392. -/
def plistExternalIdentifier : Expr := rule .plistExternalIdentifier
  (lit "PUBLIC" ~~ whiteSpace ~~ plistPublicIdentifierLiteral ~~ whiteSpace ~~ plistSystemLiteral)

/-- `plist_doctype_declaration`, xmlplist.pest:386-388. -/
def plistDoctypeDeclaration : Expr := rule .plistDoctypeDeclaration
  (lit "<!DOCTYPE" ~~ whiteSpace ~~ lit "plist" ~~ whiteSpace ~~ plistExternalIdentifier ~~ opt whiteSpace ~~ lit ">")

/-- `plist_prolog`, xmlplist.pest:382-384. -/
def plistProlog : Expr := rule .plistProlog
  (opt xmlDeclaration ~~ star miscellaneous ~~ opt (plistDoctypeDeclaration ~~ star miscellaneous))

/-- The start tags, for example `plist_array_element_start_tag`, xmlplist.pest:448-450, and the elements of boolean values, 436-442. -/
def tag (start close : String) : Expr := lit start ~~ star (whiteSpace ~~ attributeExpr) ~~ opt whiteSpace ~~ lit close

/-- The end tags, for example `plist_array_element_end_tag`, xmlplist.pest:452-454. -/
def endTag (start : String) : Expr := lit start ~~ opt whiteSpace ~~ lit ">"

/-- `plist_content` and `plist_dict_content`, xmlplist.pest:416-418 and 492-494, with the element of the alternatives. -/
def contentOf (r : Rule) (element : Expr) : Expr := rule r
  (opt characterData ~~ star ((element // reference // cdataSection // processingInstructions // comment) ~~ opt characterData))

/-- An element with a content, for example `plist_array_element`, xmlplist.pest:444-446. -/
def elementOf (r start close : Rule) (label : String) (content : Expr) : Expr :=
  rule r (rule start (tag ("<" ++ label) ">") ~~ content ~~ rule close (endTag ("</" ++ label)))

/-- `plist_key_and_object_element_pair`, xmlplist.pest:432-434, with `plist_key_element`, 520-530. -/
def keyPairOf (content object : Expr) : Expr := rule .plistKeyAndObjectElementPair
  (elementOf .plistKeyElement .plistKeyElementStartTag .plistKeyElementEndTag "key" content ~~ opt characterData ~~ object)

/-- `plist_object_element`, xmlplist.pest:420-430, with its alternatives, 436-518 and 532-542; a bound on the nesting. -/
def object : Nat → Expr
  | 0 => fun _ => .endless
  | n + 1 =>
    let content := contentOf .plistContent (object n)
    rule .plistObjectElement
      (elementOf .plistArrayElement .plistArrayElementStartTag .plistArrayElementEndTag "array" content //
        rule .plistBooleanFalseElement (tag "<false" "/>") //
        rule .plistBooleanTrueElement (tag "<true" "/>") //
        elementOf .plistDataElement .plistDataElementStartTag .plistDataElementEndTag "data" content //
        elementOf .plistDateElement .plistDateElementStartTag .plistDateElementEndTag "date" content //
        elementOf .plistDictElement .plistDictElementStartTag .plistDictElementEndTag "dict"
          (contentOf .plistDictContent (keyPairOf content (object n))) //
        elementOf .plistFloatingPointElement .plistFloatingPointElementStartTag .plistFloatingPointElementEndTag "real" content //
        elementOf .plistIntegerElement .plistIntegerElementStartTag .plistIntegerElementEndTag "integer" content //
        elementOf .plistStringElement .plistStringElementStartTag .plistStringElementEndTag "string" content)

/-- `plist_element`, xmlplist.pest:404-414. -/
def plistElement (n : Nat) : Expr :=
  elementOf .plistElement .plistElementStartTag .plistElementEndTag "plist" (contentOf .plistContent (object n))

/-- `plist_document`, xmlplist.pest:378-380. `SOI` matches as it is the first. -/
def plistDocument (n : Nat) : Expr := rule .plistDocument
  (opt byteOrderMark ~~ plistProlog ~~ plistElement n ~~ star miscellaneous ~~ eoi)

/-- `PlistObject`, plist/object.rs:17-44. A `HashMap` is the list of what was inserted, in this order. A floating-point value is given by its
bits. A date and time is never made. -/
inductive Object where
  | array (values : List Object)
  | boolean (value : Bool)
  | data (bytes : List Byte)
  | dictionary (values : List (List Char × Object))
  | floatingPoint (bits : BitVec 64)
  | integer (value : Int)
  | none
  | string (text : List Char)

/-- `!= PlistObject::None`. -/
def Object.isNone : Object → Bool
  | .none => true
  | _ => false

/-- The second of the pairs of an element, after its start tag, and at most one more, for example xmlplist.rs:135-142 and 152-159. Simplification:
what comes after is tested before the second pair is used; an element of the grammar always has three pairs. -/
def second : List Pair → R Pair
  | _ :: p :: rest => if rest.length ≤ 1 then .ok p else .err
  | _ => .err

/-- The digits of `i64::from_str_radix` (standard library), with the sign. -/
def i64Digits (negative : Bool) : List Char → Int → Option Int
  | [], n => some n
  | c :: rest, n =>
    if c.isDigit then
      let m := if negative then n * 10 - (c.toNat - 48 : Nat) else n * 10 + (c.toNat - 48 : Nat)
      if -2 ^ 63 ≤ m ∧ m < 2 ^ 63 then i64Digits negative rest m else none
    else none

/-- `i64::from_str_radix` with radix 10 (standard library). -/
def i64OfText (s : List Char) : Option Int :=
  match s with
  | [] => none
  | c :: rest =>
    if c = '-' then (if rest = [] then none else i64Digits true rest 0)
    else if c = '+' then (if rest = [] then none else i64Digits false rest 0)
    else i64Digits false (c :: rest) 0

/-- The UTF-8 bytes of a text. -/
def utf8 (s : List Char) : List Byte := s.flatMap fun c => Path.utf8 c.toNat

/-- `parse_plist_string_content`, xmlplist.rs:585-606. -/
def stringContent : List Pair → R (List Char)
  | [] => .ok []
  | p :: rest =>
    if p.rule = .characterData then do
      let t ← stringContent rest
      return p.text ++ t
    else .err

/-- `parse_plist_string_element`, xmlplist.rs:609-641. -/
def stringElement (inner : List Pair) : R (List Char) := do
  let p ← second inner
  stringContent p.inner

/-- `parse_plist_data_element`, xmlplist.rs:268-313. -/
def dataElement (inner : List Pair) : R Object := do
  let p ← second inner
  let (bytes, _) ← Base64.values (Base64.State.new (utf8 p.text) true)
  return .data bytes

/-- `parse_plist_floating_point_element`, xmlplist.rs:345-379. `f64::from_str` (standard library) is a parameter. -/
def floatingPointElement (f64 : List Char → Option (BitVec 64)) (inner : List Pair) : R Object := do
  let p ← second inner
  match f64 p.text with
  | some v => .ok (.floatingPoint v)
  | none => .err

/-- `parse_plist_integer_element`, xmlplist.rs:382-414. -/
def integerElement (inner : List Pair) : R Object := do
  let p ← second inner
  match i64OfText p.text with
  | some v => .ok (.integer v)
  | none => .err

/-- `parse_plist_array_content`, xmlplist.rs:95-128, with the function for elements. -/
def arrayContent (obj : List Pair → R Object) : List Pair → List Object → R (List Object)
  | [], values => .ok values
  | p :: rest, values =>
    if p.rule = .characterData then arrayContent obj rest values
    else if p.rule = .plistObjectElement then do
      let o ← obj p.inner
      arrayContent obj rest (values ++ [o])
    else .err

/-- The loops of `parse_plist_content`, xmlplist.rs:238-266, and `parse_plist_key_and_object_element_pair`, 434-459: the last object. -/
def lastObject (obj : List Pair → R Object) : List Pair → Object → R Object
  | [], o => .ok o
  | p :: rest, o =>
    if p.rule = .characterData then lastObject obj rest o
    else if p.rule = .plistObjectElement then do
      let o ← obj p.inner
      lastObject obj rest o
    else .err

/-- `parse_plist_key_and_object_element_pair`, xmlplist.rs:417-474. -/
def keyPair (obj : List Pair → R Object) (inner : List Pair) : R (List Char × Object) :=
  match inner with
  | [] => .err
  | p :: rest => do
    let key ← stringElement p.inner
    let o ← lastObject obj rest .none
    R.require (o.isNone = false)
    return (key, o)

/-- `parse_plist_dict_content`, xmlplist.rs:164-198. -/
def dictContent (obj : List Pair → R Object) : List Pair → List (List Char × Object) → R (List (List Char × Object))
  | [], values => .ok values
  | p :: rest, values =>
    if p.rule = .characterData then dictContent obj rest values
    else if p.rule = .plistKeyAndObjectElementPair then do
      let kv ← keyPair obj p.inner
      dictContent obj rest (values ++ [kv])
    else .err

/-- The alternatives of `parse_plist_object_element`, xmlplist.rs:491-573, with `parse_plist_array_element`, 131-161, and
`parse_plist_dict_element`, 201-235. A date is `todo!()`. -/
def objectOfPair (f64 : List Char → Option (BitVec 64)) (obj : List Pair → R Object) (p : Pair) : R Object :=
  match p.rule with
  | .plistArrayElement => do
    let c ← second p.inner
    let values ← arrayContent obj c.inner []
    return .array values
  | .plistBooleanFalseElement => .ok (.boolean false)
  | .plistBooleanTrueElement => .ok (.boolean true)
  | .plistDataElement => dataElement p.inner
  | .plistDateElement => .panic
  | .plistDictElement => do
    let c ← second p.inner
    let values ← dictContent obj c.inner []
    return .dictionary values
  | .plistFloatingPointElement => floatingPointElement f64 p.inner
  | .plistIntegerElement => integerElement p.inner
  | .plistStringElement => do
    let t ← stringElement p.inner
    return .string t
  | _ => .err

/-- `parse_plist_object_element`, xmlplist.rs:477-582, on the pairs in it, with a bound on the nesting. -/
def objectElement (f64 : List Char → Option (BitVec 64)) : Nat → List Pair → R Object
  | 0, _ => .panic
  | n + 1, inner => match inner with
    | [] => .err
    | p :: rest => do
      let o ← objectOfPair f64 (objectElement f64 n) p
      R.require (rest = [])
      return o

/-- `parse_plist_element`, xmlplist.rs:316-342. -/
def rootElement (f64 : List Char → Option (BitVec 64)) (n : Nat) (inner : List Pair) : R Object := do
  let p ← second inner
  lastObject (objectElement f64 n) p.inner .none

/-- The loop of `parse`, xmlplist.rs:63-87. -/
def documentLoop (f64 : List Char → Option (BitVec 64)) (n : Nat) : List Pair → Object → R Object
  | [], o => .ok o
  | p :: rest, o =>
    if p.rule = .plistElement then do
      let o ← rootElement f64 n p.inner
      documentLoop f64 n rest o
    else if p.rule = .eoi ∨ p.rule = .miscellaneous ∨ p.rule = .plistProlog then documentLoop f64 n rest o
    else .err

/-- `XmlPlist::parse`, xmlplist.rs:45-91, of a new `XmlPlist`: its root object. -/
def parse (f64 : List Char → Option (BitVec 64)) (text : List Char) : R Object :=
  match plistDocument (text.length + 1) text with
  | .ok _ (p :: _) => documentLoop f64 (text.length + 1) p.inner .none
  | .ok _ [] => .err
  | .fail => .err
  | .endless => .panic

/-- `get_object_by_key`, object.rs:124-130: the last that was inserted. -/
def Object.get (o : Object) (key : List Char) : Option Object :=
  match o with
  | .dictionary values => (values.reverse.find? fun p => p.1 = key).map Prod.snd
  | _ => none

/-- `get_bytes_by_key` and `as_bytes`, object.rs:106-112 and 56-61. -/
def Object.bytes (o : Object) (key : List Char) : Option (List Byte) :=
  match o.get key with
  | some (.data b) => some b
  | _ => Option.none

/-- `get_integer_by_key` and `as_integer`, object.rs:115-121 and 82-87. -/
def Object.int (o : Object) (key : List Char) : Option Int :=
  match o.get key with
  | some (.integer n) => some n
  | _ => Option.none

/-- `get_string_by_key` and `as_string`, object.rs:133-139 and 90-95. -/
def Object.str (o : Object) (key : List Char) : Option (List Char) :=
  match o.get key with
  | some (.string t) => some t
  | _ => Option.none

/-- `get_vector_by_key` and `as_vector`, object.rs:142-148 and 98-103. -/
def Object.vector (o : Object) (key : List Char) : Option (List Object) :=
  match o.get key with
  | some (.array l) => some l
  | _ => Option.none

end Keramics.XmlPlist
