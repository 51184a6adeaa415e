import Verif.Model.Base64
/-!
Model of the structured field values library (crate sfv 0.14.0, RFC 9651 mode), as far as the code uses it:

* `Parser::new(s).parse::<Dictionary>()`: httpsig/src/signature_base.rs 36-44, component_param.rs 111 and 132,
  httpsig-hyper/src/hyper_content_digest.rs 228-236
* `Parser::new(s).parse::<List>()`: httpsig/src/signature_params.rs 214-216, component_param.rs 109
* `Parser::new(s).parse::<Item>()`: httpsig/src/message_component/component_id.rs 40-48
* `serialize` of items, lists and dictionaries: signature_params.rs 170, component_param.rs 110, 112, 143.

The source of sfv is not in /repo. This is a transcription of its documented algorithm (RFC 9651 section 4).
Error messages and positions are dropped: a failed parse is `none`.
Loops run on fuel, see `Proofs/SfvScan.lean` for the proof that the fuel given is always enough.
-/
namespace Verif.Sfv

/-- A bare item. A decimal is held in thousandths, a display string as its UTF-8 bytes. -/
inductive Bare where
  | int (n : Int)
  | dec (n : Int)
  | str (s : Str)
  | tok (s : Str)
  | bytes (b : Bytes)
  | bool (b : Bool)
  | date (n : Int)
  | disp (b : Bytes)
  deriving DecidableEq, Repr

/-- Parameters: insertion-ordered map. -/
abbrev Params := List (Str × Bare)

/-- Item with parameters. -/
structure Item where
  bare : Bare
  params : Params
  deriving DecidableEq, Repr

/-- Inner list with parameters. -/
structure InnerList where
  items : List Item
  params : Params
  deriving DecidableEq, Repr

/-- Member of a list or dictionary. -/
inductive Entry where
  | item (i : Item)
  | inner (l : InnerList)
  deriving DecidableEq, Repr

/-- Structured list. -/
abbrev SList := List Entry
/-- Structured dictionary: insertion-ordered map. -/
abbrev Dict := List (Str × Entry)

/-! ### Character classes -/

def isLcAlpha (c : Char) : Bool := 'a' ≤ c && c ≤ 'z'
def isDig (c : Char) : Bool := '0' ≤ c && c ≤ '9'
def isAlph (c : Char) : Bool := ('a' ≤ c && c ≤ 'z') || ('A' ≤ c && c ≤ 'Z')
/-- First character of a key. -/
def isKeyStart (c : Char) : Bool := isLcAlpha c || c == '*'
/-- Later character of a key. -/
def isKeyChar (c : Char) : Bool :=
  isLcAlpha c || isDig c || c == '_' || c == '-' || c == '.' || c == '*'
/-- `tchar` of RFC 9110. -/
def isTchar (c : Char) : Bool :=
  isAlph c || isDig c || c == '!' || c == '#' || c == '$' || c == '%' || c == '&' || c == '\'' || c == '*' ||
  c == '+' || c == '-' || c == '.' || c == '^' || c == '_' || c == '`' || c == '|' || c == '~'
/-- First character of a token. -/
def isTokStart (c : Char) : Bool := isAlph c || c == '*'
/-- Later character of a token. -/
def isTokChar (c : Char) : Bool := isTchar c || c == ':' || c == '/'
/-- Printable ASCII. -/
def isVisible (c : Char) : Bool := 0x20 ≤ c.toNat && c.toNat ≤ 0x7e
def isSp (c : Char) : Bool := c == ' '
/-- Optional white space between list members. -/
def isOws (c : Char) : Bool := c == ' ' || c == '\t'

/-! ### Parser -/

/-- RFC 9651 section 4.2.3.3. -/
def parseKey : Str → Option (Str × Str)
  | [] => none
  | c :: t => if isKeyStart c then some (c :: t.takeWhile isKeyChar, t.dropWhile isKeyChar) else none

/-- Number without sign, RFC 9651 section 4.2.4. -/
def parseUNum (neg : Bool) (s : Str) : Option (Bare × Str) :=
  let sgn (n : Nat) : Int := if neg then -(n : Int) else n
  let ds := s.takeWhile isDig
  if ds = [] then none
  else match s.dropWhile isDig with
    | '.' :: r =>
      let fs := r.takeWhile isDig
      if 12 < ds.length ∨ fs = [] ∨ 3 < fs.length then none
      else some (.dec (sgn (digitsVal ds * 1000 + digitsVal fs * 10 ^ (3 - fs.length))), r.dropWhile isDig)
    | r => if 15 < ds.length then none else some (.int (sgn (digitsVal ds)), r)

/-- Integer or decimal, RFC 9651 section 4.2.4. -/
def parseNum : Str → Option (Bare × Str)
  | '-' :: t => parseUNum true t
  | s => parseUNum false s

/-- Rest of a string after the opening quote, RFC 9651 section 4.2.5. -/
def parseStrBody : Str → Option (Str × Str)
  | [] => none
  | c :: t =>
    if c = '"' then some ([], t)
    else if c = '\\' then
      match t with
      | [] => none
      | d :: t' =>
        if d = '"' ∨ d = '\\' then
          match parseStrBody t' with
          | some (x, r) => some (d :: x, r)
          | none => none
        else none
    else if isVisible c then
      match parseStrBody t with
      | some (x, r) => some (c :: x, r)
      | none => none
    else none

/-- Rest of a byte sequence after the opening colon, RFC 9651 section 4.2.7. -/
def parseBytesBody (s : Str) : Option (Bytes × Str) :=
  match splitOnce ':' s with
  | none => none
  | some (a, r) =>
    match Base64.decode false a with
    | some b => some (b, r)
    | none => none

/-- Lower-case hexadecimal digit. -/
def hexVal (c : Char) : Option Nat :=
  if isDig c then some (c.toNat - 48)
  else if 'a' ≤ c ∧ c ≤ 'f' then some (c.toNat - 87)
  else none

/-- Rest of a display string after `%"`, as bytes, RFC 9651 section 4.2.10. -/
def parseDispBody : Str → Option (Bytes × Str)
  | [] => none
  | c :: t =>
    if c = '"' then some ([], t)
    else if c = '%' then
      match t with
      | h :: l :: t' =>
        match hexVal h, hexVal l, parseDispBody t' with
        | some x, some y, some (b, r) => some (UInt8.ofNat (x * 16 + y) :: b, r)
        | _, _, _ => none
      | _ => none
    else if isVisible c then
      match parseDispBody t with
      | some (b, r) => some (UInt8.ofNat c.toNat :: b, r)
      | none => none
    else none

/-- Bare item, RFC 9651 section 4.2.3.1: dispatch on the first character. -/
def parseBare : Str → Option (Bare × Str)
  | [] => none
  | c :: t =>
    if c = '-' ∨ isDig c then parseNum (c :: t)
    else if c = '"' then
      match parseStrBody t with
      | some (x, r) => some (.str x, r)
      | none => none
    else if c = ':' then
      match parseBytesBody t with
      | some (b, r) => some (.bytes b, r)
      | none => none
    else if c = '?' then
      match t with
      | '1' :: r => some (.bool true, r)
      | '0' :: r => some (.bool false, r)
      | _ => none
    else if c = '@' then
      match parseNum t with
      | some (.int n, r) => some (.date n, r)
      | _ => none
    else if c = '%' then
      match t with
      | '"' :: t' =>
        match parseDispBody t' with
        | some (b, r) => if validUtf8 b then some (.disp b, r) else none
        | none => none
      | _ => none
    else if isTokStart c then some (.tok (c :: t.takeWhile isTokChar), t.dropWhile isTokChar)
    else none

/-- Parameters loop, RFC 9651 section 4.2.3.2. A later value of a key replaces the earlier one in place. -/
def parseParamsAux : Nat → Params → Str → Option (Params × Str)
  | 0, _, _ => none
  | f + 1, acc, ';' :: t =>
    match parseKey (t.dropWhile isSp) with
    | none => none
    | some (k, '=' :: r) =>
      match parseBare r with
      | none => none
      | some (v, r') => parseParamsAux f (imInsert acc k v) r'
    | some (k, r) => parseParamsAux f (imInsert acc k (.bool true)) r
  | _ + 1, acc, s => some (acc, s)

def parseParams (s : Str) : Option (Params × Str) := parseParamsAux (s.length + 1) [] s

/-- Item, RFC 9651 section 4.2.3. -/
def parseItem (s : Str) : Option (Item × Str) :=
  match parseBare s with
  | none => none
  | some (b, r) =>
    match parseParams r with
    | none => none
    | some (p, r') => some (⟨b, p⟩, r')

/-- Inner list after `(`: items up to `)`, RFC 9651 section 4.2.1.2. -/
def parseItemsAux : Nat → Str → Option (List Item × Str)
  | 0, _ => none
  | f + 1, s =>
    match s.dropWhile isSp with
    | [] => none
    | ')' :: r => some ([], r)
    | s' =>
      match parseItem s' with
      | none => none
      | some (i, r) =>
        match r with
        | ' ' :: _ | ')' :: _ =>
          match parseItemsAux f r with
          | some (is, r') => some (i :: is, r')
          | none => none
        | _ => none

/-- Item or inner list, RFC 9651 section 4.2.1.1. -/
def parseEntry : Str → Option (Entry × Str)
  | '(' :: t =>
    match parseItemsAux (t.length + 1) t with
    | none => none
    | some (is, r) =>
      match parseParams r with
      | none => none
      | some (p, r') => some (.inner ⟨is, p⟩, r')
  | s =>
    match parseItem s with
    | none => none
    | some (i, r) => some (.item i, r)

/-- Dictionary member, RFC 9651 section 4.2.2. -/
def parseMember (s : Str) : Option ((Str × Entry) × Str) :=
  match parseKey s with
  | none => none
  | some (k, '=' :: r) =>
    match parseEntry r with
    | none => none
    | some (e, r') => some ((k, e), r')
  | some (k, r) =>
    match parseParams r with
    | none => none
    | some (p, r') => some ((k, .item ⟨.bool true, p⟩), r')

/-- Comma-separated members up to the end of the input, RFC 9651 sections 4.2.1 and 4.2.2. -/
def parseSepAux {α : Type} (p : Str → Option (α × Str)) : Nat → Str → Option (List α)
  | 0, _ => none
  | f + 1, s =>
    if s = [] then some []
    else match p s with
      | none => none
      | some (x, r) =>
        match r.dropWhile isOws with
        | [] => some [x]
        | ',' :: t =>
          match t.dropWhile isOws with
          | [] => none
          | t' =>
            match parseSepAux p f t' with
            | some xs => some (x :: xs)
            | none => none
        | _ => none

def parseSep {α : Type} (p : Str → Option (α × Str)) (s : Str) : Option (List α) :=
  parseSepAux p (s.length + 1) s

/-- `Parser::new(s).parse::<List>()`. -/
def parseList (s : Str) : Option SList := parseSep parseEntry (s.dropWhile isSp)

/-- `Parser::new(s).parse::<Dictionary>()`. A later member with the same key replaces the earlier one in place. -/
def parseDict (s : Str) : Option Dict :=
  match parseSep parseMember (s.dropWhile isSp) with
  | some l => some (imOfList l)
  | none => none

/-- `Parser::new(s).parse::<Item>()`. -/
def parseItemTop (s : Str) : Option Item :=
  match parseItem (s.dropWhile isSp) with
  | some (i, r) => if r.dropWhile isSp = [] then some i else none
  | none => none

/-! ### Serializer -/

/-- RFC 9651 section 4.1.4. -/
def serInt : Int → Str
  | .ofNat n => natStr n
  | .negSucc n => '-' :: natStr (n + 1)

/-- Digits after the decimal point, without trailing zeros but at least one. `f < 1000`. -/
def serFrac (f : Nat) : Str :=
  if f % 10 ≠ 0 then [digitChar (f / 100), digitChar (f / 10 % 10), digitChar (f % 10)]
  else if f / 10 % 10 ≠ 0 then [digitChar (f / 100), digitChar (f / 10 % 10)]
  else [digitChar (f / 100)]

/-- RFC 9651 section 4.1.5; the number is in thousandths. -/
def serDec (n : Int) : Str :=
  (if n < 0 then ['-'] else []) ++ natStr (n.natAbs / 1000) ++ ['.'] ++ serFrac (n.natAbs % 1000)

/-- Body of a string with escapes, RFC 9651 section 4.1.6. -/
def escStr : Str → Str
  | [] => []
  | c :: t => if c = '"' ∨ c = '\\' then '\\' :: c :: escStr t else c :: escStr t

def hexChar (n : Nat) : Char := if n < 10 then Char.ofNat (48 + n) else Char.ofNat (87 + n)

/-- Body of a display string, RFC 9651 section 4.1.11. -/
def escDisp : Bytes → Str
  | [] => []
  | b :: t =>
    let n := b.toNat
    if n = 0x25 ∨ n = 0x22 ∨ n < 0x20 ∨ 0x7e < n then '%' :: hexChar (n / 16) :: hexChar (n % 16) :: escDisp t
    else Char.ofNat n :: escDisp t

/-- RFC 9651 section 4.1.3.1. -/
def serBare : Bare → Str
  | .int n => serInt n
  | .dec n => serDec n
  | .str s => '"' :: (escStr s ++ ['"'])
  | .tok s => s
  | .bytes b => ':' :: (Base64.encode b ++ [':'])
  | .bool b => if b then ['?', '1'] else ['?', '0']
  | .date n => '@' :: serInt n
  | .disp b => '%' :: '"' :: (escDisp b ++ ['"'])

/-- One parameter: a true value is omitted, RFC 9651 section 4.1.1.2. -/
def serParam (kv : Str × Bare) : Str :=
  match kv with
  | (k, v) => ';' :: (k ++ (if v = .bool true then [] else '=' :: serBare v))

def serParams (p : Params) : Str := p.flatMap serParam

def serItem (i : Item) : Str := serBare i.bare ++ serParams i.params

def serInner (l : InnerList) : Str := '(' :: (join [' '] (l.items.map serItem) ++ ')' :: serParams l.params)

def serEntry : Entry → Str
  | .item i => serItem i
  | .inner l => serInner l

/-- Dictionary member: a true item is written as the key and its parameters, RFC 9651 section 4.1.2. -/
def serMember (kv : Str × Entry) : Str :=
  match kv with
  | (k, .item ⟨.bool true, p⟩) => k ++ serParams p
  | (k, e) => k ++ '=' :: serEntry e

/-- `List::serialize`: `None` when empty. -/
def serList (l : SList) : Option Str :=
  if l = [] then none else some (join [',', ' '] (l.map serEntry))

/-- `Dictionary::serialize`: `None` when empty. -/
def serDict (d : Dict) : Option Str :=
  if d = [] then none else some (join [',', ' '] (d.map serMember))

/-! Replays of the unit test httpsig/src/message_component/component_param.rs 158-177. -/
#guard (parseItemTop (c! "12.445;foo=bar")).map serItem = some (c! "12.445;foo=bar")
#guard (parseList (c! "  1; a=tok, (\"foo\"   \"bar\" );baz, (  )")).bind serList = some (c! "1;a=tok, (\"foo\" \"bar\");baz, ()")
#guard (parseDict (c! "a=?0, b, c; foo=bar, rating=1.5, fruits=(apple pear), d")).bind serDict =
  some (c! "a=?0, b, c;foo=bar, rating=1.5, fruits=(apple pear), d")
#guard (parseDict (c! "a=1, b=2, a=3")).bind serDict = some (c! "a=3, b=2")
#guard parseDict (c! "a=1,") = none
#guard parseDict (c! "") = some []
#guard parseList (c! "1 2") = none
#guard (parseItemTop (c! "%\"f%c3%bc%25\"")).map serItem = some (c! "%\"f%c3%bc%25\"")
#guard parseItemTop (c! "%\"f%c3\"") = none
#guard (parseItemTop (c! "@-12")).map serItem = some (c! "@-12")
#guard parseItemTop (c! "@1.5") = none
#guard (parseItemTop (c! "-0.100")).map serItem = some (c! "-0.1")

end Verif.Sfv
