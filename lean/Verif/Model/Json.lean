import Verif.Model.Cbor
/-!
# JSON, byte by byte

`json.Marshal` and `json.Unmarshal` of Go's `encoding/json` as serializers/json.go:13-21 and payload.go:93-110 use them (go 1.22).  The
package is not part of the repository; this is modelled from its documentation and RFC 8259: no white space, keys sorted, `<`, `>`, `&`,
U+2028 and U+2029 escaped, bytes that are not UTF-8 replaced by U+FFFD when writing and when reading, `[]byte` as base64, NaN and
infinities refused, every number read as `float64`, at most 10000 levels of nesting, last one of equal keys wins.
Numbers that no finite float is near to are refused.  Simplified: `strconv` looks at no more than five digits of an exponent, which makes a difference only next to
ten thousand zeros.
-/
namespace Wamp.Json
open Wamp Wamp.Cbor

/-! ## Text -/

/-- Escape of one ASCII byte inside a string. -/
def escByte (a : UInt8) : Str :=
  if a = 0x22 then [0x5c, 0x22]
  else if a = 0x5c then [0x5c, 0x5c]
  else if a = 8 then [0x5c, 0x62]
  else if a = 12 then [0x5c, 0x66]
  else if a = 10 then [0x5c, 0x6e]
  else if a = 13 then [0x5c, 0x72]
  else if a = 9 then [0x5c, 0x74]
  else if a < 0x20 || (a = 0x3c || a = 0x3e || a = 0x26) then
    [0x5c, 0x75, 0x30, 0x30, hexDigit (a.toNat / 16), hexDigit (a.toNat % 16)]
  else [a]

/-- A sequence of two bytes in UTF-8. -/
def two (a b : UInt8) : Bool := within a 0xc2 0xdf && within b 0x80 0xbf
/-- A sequence of three bytes in UTF-8. -/
def three (a b c : UInt8) : Bool :=
  (within a 0xe0 0xef && within b (if a = 0xe0 then 0xa0 else 0x80) (if a = 0xed then 0x9f else 0xbf)) && within c 0x80 0xbf
/-- A sequence of four bytes in UTF-8. -/
def four (a b c d : UInt8) : Bool :=
  (within a 0xf0 0xf4 && within b (if a = 0xf0 then 0x90 else 0x80) (if a = 0xf4 then 0x8f else 0xbf)) &&
    (within c 0x80 0xbf && within d 0x80 0xbf)

/-- `\ufffd` -/
def badRune : Str := [0x5c, 0x75, 0x66, 0x66, 0x66, 0x64]

/-- U+2028 and U+2029 are escaped, other sequences of three bytes are not. -/
def escThree (a b c : UInt8) : Str :=
  if a = 0xe2 ∧ b = 0x80 ∧ (c = 0xa8 ∨ c = 0xa9) then [0x5c, 0x75, 0x32, 0x30, 0x32, hexDigit (c.toNat % 16)] else [a, b, c]

/-- The contents of a string literal. -/
def escape : Str → Str
  | [] => []
  | a :: r1 =>
    if a.toNat < 0x80 then escByte a ++ escape r1
    else match r1 with
    | [] => badRune
    | b :: r2 =>
      if two a b then a :: b :: escape r2
      else match r2 with
      | [] => badRune ++ escape [b]
      | c :: r3 =>
        if three a b c then escThree a b c ++ escape r3
        else match r3 with
        | [] => badRune ++ escape [b, c]
        | d :: r4 => if four a b c d then a :: b :: c :: d :: escape r4 else badRune ++ escape (b :: c :: d :: r4)

/-- A string literal. -/
def quote (s : Str) : Str := 0x22 :: (escape s ++ [0x22])

/-- Four hex digits. -/
def hex4 (a b c d : UInt8) : Option Nat :=
  match hexVal a, hexVal b, hexVal c, hexVal d with
  | some a, some b, some c, some d => some (((a * 16 + b) * 16 + c) * 16 + d)
  | _, _, _, _ => none

/-- UTF-8 of a code point up to 0x10ffff. -/
def utf8 (n : Nat) : Str :=
  if n < 0x80 then [UInt8.ofNat n]
  else if n < 0x800 then [UInt8.ofNat (0xc0 + n / 64), UInt8.ofNat (0x80 + n % 64)]
  else if n < 0x10000 then [UInt8.ofNat (0xe0 + n / 4096), UInt8.ofNat (0x80 + n / 64 % 64), UInt8.ofNat (0x80 + n % 64)]
  else [UInt8.ofNat (0xf0 + n / 262144), UInt8.ofNat (0x80 + n / 4096 % 64), UInt8.ofNat (0x80 + n / 64 % 64), UInt8.ofNat (0x80 + n % 64)]

/-- U+FFFD -/
def replacement : Str := [0xef, 0xbf, 0xbd]

/-- The character after a backslash, except `u`. -/
def simpleEscape (c : UInt8) : Option UInt8 :=
  if c = 0x22 then some 0x22
  else if c = 0x5c then some 0x5c
  else if c = 0x2f then some 0x2f
  else if c = 0x62 then some 8
  else if c = 0x66 then some 12
  else if c = 0x6e then some 10
  else if c = 0x72 then some 13
  else if c = 0x74 then some 9
  else none

/-- Put bytes in front of what is read next. -/
def prepend (p : Str) : Option (Str × Str) → Option (Str × Str)
  | some (t, s) => some (p ++ t, s)
  | none => none

/-- What an open first half of a surrogate pair turns into when no second half follows. -/
def flush : Option Nat → Str
  | none => []
  | some _ => replacement

/-- The UTF-16 unit `n` after the open first half `hi`: the text it completes and the first half it leaves open. -/
def unit (hi : Option Nat) (n : Nat) : Str × Option Nat :=
  if n < 0xd800 ∨ 0xdfff < n then (flush hi ++ utf8 n, none)
  else if n < 0xdc00 then (flush hi, some n)
  else match hi with
  | some h => (utf8 (0x10000 + (h - 0xd800) * 0x400 + (n - 0xdc00)), none)
  | none => (replacement, none)

/-- Reading the contents of a string literal up to the closing quote: contents and what follows. `hi` is an open first half of a
surrogate pair. -/
def unescape (hi : Option Nat) : Str → Option (Str × Str)
  | [] => none
  | a :: r1 =>
    if a = 0x22 then some (flush hi, r1)
    else if a = 0x5c then
      match r1 with
      | [] => none
      | c :: r2 =>
        if c = 0x75 then
          match r2 with
          | h1 :: h2 :: h3 :: h4 :: r3 =>
            match hex4 h1 h2 h3 h4 with
            | none => none
            | some n => prepend (unit hi n).1 (unescape (unit hi n).2 r3)
          | _ => none
        else
          match simpleEscape c with
          | some b => prepend (flush hi ++ [b]) (unescape none r2)
          | none => none
    else if a < 0x20 then none
    else if a.toNat < 0x80 then prepend (flush hi ++ [a]) (unescape none r1)
    else match r1 with
    | [] => none
    | b :: r2 =>
      if two a b then prepend (flush hi ++ [a, b]) (unescape none r2)
      else match r2 with
      | [] => prepend (flush hi ++ replacement) (unescape none [b])
      | c :: r3 =>
        if three a b c then prepend (flush hi ++ [a, b, c]) (unescape none r3)
        else match r3 with
        | [] => prepend (flush hi ++ replacement) (unescape none [b, c])
        | d :: r4 =>
          if four a b c d then prepend (flush hi ++ [a, b, c, d]) (unescape none r4)
          else prepend (flush hi ++ replacement) (unescape none (b :: c :: d :: r4))

/-! ## Numbers -/

/-- Decimal digits. -/
def decimal (n : Nat) : Str := if n < 10 then [UInt8.ofNat (48 + n)] else decimal (n / 10) ++ [UInt8.ofNat (48 + n % 10)]

/-- Decimal integer. -/
def intText (v : Int) : Str := if v < 0 then 0x2d :: decimal v.natAbs else decimal v.natAbs

/-- `0`-`9` -/
def isDigit (c : UInt8) : Bool := within c 48 57

/-- Characters a number consists of. -/
def numChar (c : UInt8) : Bool := isDigit c || (c = 0x2d || c = 0x2b) || (c = 0x2e || c = 0x65 || c = 0x45)

/-- One or more digits. -/
def digits (s : Str) : Bool := !s.isEmpty && s.all isDigit

/-- An integer without superfluous zeros. -/
def natural (s : Str) : Bool := digits s && (s.length = 1 || s.head? != some 48)

/-- After the exponent sign `e`. -/
def exponent (s : Str) : Bool :=
  match s with
  | c :: rest => if c = 0x2d || c = 0x2b then digits rest else digits s
  | [] => false

/-- An optional exponent. -/
def optExponent (s : Str) : Bool :=
  match s with
  | [] => true
  | c :: rest => (c = 0x65 || c = 0x45) && exponent rest

/-- An optional fraction, then an optional exponent. -/
def fraction (s : Str) : Bool :=
  match s with
  | [] => true
  | c :: rest =>
    if c = 0x2e then digits (rest.takeWhile isDigit) && optExponent (rest.dropWhile isDigit) else optExponent s

/-- Integer, fraction, exponent. -/
def unsigned (s : Str) : Bool := natural (s.takeWhile isDigit) && fraction (s.dropWhile isDigit)

/-- The grammar of numbers (RFC 8259, 6). -/
def isNumber (s : Str) : Bool :=
  match s with
  | [] => false
  | c :: rest => if c = 0x2d then unsigned rest else unsigned s

/-- The value of decimal digits. -/
def value (s : Str) : Nat := s.foldl (fun a c => a * 10 + (c.toNat - 48)) 0

/-- The exponent of a number, from its `e` on. -/
def exponentOf (s : Str) : Int :=
  match s with
  | [] => 0
  | _ :: [] => 0
  | _ :: c :: rest => if c = 0x2d then -(value rest : Int) else if c = 0x2b then value rest else value (c :: rest)

/-- The digits after the decimal point, and what comes after them. -/
def fractionOf (s : Str) : Str × Str :=
  match s with
  | [] => ([], [])
  | c :: rest => if c = 0x2e then (rest.takeWhile isDigit, rest.dropWhile isDigit) else ([], s)

/-- The float nearest to a number without sign (`strconv.ParseFloat`). -/
def magnitudeOf (s : Str) : Option (Nat × Int) :=
  let f := fractionOf (s.dropWhile isDigit)
  Strconv.ofDecimal 11 52 (value (s.takeWhile isDigit ++ f.1)) (exponentOf f.2 - f.1.length)

/-- Reading a number. -/
def number (s : Str) : Option GoFloat :=
  match s with
  | [] => none
  | c :: rest => if c = 0x2d then (magnitudeOf rest).map fun p => .fin true p.1 p.2 else (magnitudeOf s).map fun p => .fin false p.1 p.2

/-- Digits with a decimal point after `p` of them (format `f` of `strconv.AppendFloat`). -/
def plainForm (ds : Str) (p : Int) : Str :=
  if p ≤ 0 then 48 :: 0x2e :: (List.replicate (-p).toNat 48 ++ ds)
  else if ds.length ≤ p.toNat then ds ++ List.replicate (p.toNat - ds.length) 48
  else ds.take p.toNat ++ 0x2e :: ds.drop p.toNat

/-- The same with an exponent (format `e`, of whose exponent `encoding/json` takes away a leading zero). -/
def exponentForm (ds : Str) (p : Int) : Str :=
  ds.take 1 ++ (if ds.length = 1 then [] else 0x2e :: ds.drop 1) ++
    (0x65 :: (if p ≤ 0 then 0x2d else 0x2b) :: decimal (p - 1).natAbs)

/-- Is the float below the float nearest to `num / den`? -/
def below (eb mb m : Nat) (e : Int) (num den : Nat) : Bool :=
  match Strconv.round eb mb num den with
  | some (m', e') => m * 2 ^ (e + Strconv.lowest eb mb).toNat < m' * 2 ^ (e' + Strconv.lowest eb mb).toNat
  | none => true

/-- The text of a finite float: with an exponent if below 1e-6 or from 1e21 on. -/
def floatText (eb mb : Nat) (neg : Bool) (m : Nat) (e : Int) : Str :=
  let c := Strconv.shortest eb mb m e
  let ds := decimal c.1
  (if neg then [0x2d] else []) ++
    if m = 0 then [48]
    else if below eb mb m e 1 (10 ^ 6) || !below eb mb m e (10 ^ 21) 1 then exponentForm ds (ds.length + c.2)
    else plainForm ds (ds.length + c.2)

/-! ## Encoder -/

/-- Items separated by commas. -/
def commas : List Str → Str
  | [] => []
  | [a] => a
  | a :: rest => a ++ 0x2c :: commas rest

/-- A finite float; others are refused. -/
def finite (eb mb : Nat) : GoFloat → Option Str
  | .fin neg m e => some (floatText eb mb neg m e)
  | _ => none

mutual
/-- `json.Marshal` of a value; `none` is an error. -/
def enc : Val → Option Str
  | .nil => some (str "null")
  | .bool b => some (if b then str "true" else str "false")
  | .int _ v => some (intText v)
  | .uint _ n => some (decimal n)
  | .f32 f => finite 8 23 f
  | .f64 f => finite 11 52 f
  | .str s => some (quote s)
  | .named s => some (quote s)
  | .bytes b => some (0x22 :: (b64Encode b ++ [0x22]))
  | .arr l => (encL l).map fun ps => 0x5b :: (commas ps ++ [0x5d])
  | .arrNil => some (str "null")
  | .strs l => some (0x5b :: (commas (l.map quote) ++ [0x5d]))
  | .strsNil => some (str "null")
  | .map d => (encM d).map fun ps => 0x7b :: (commas ps ++ [0x7d])
  | .mapNil => some (str "null")
  | .other _ => none
/-- The elements of a list. -/
def encL : List Val → Option (List Str)
  | [] => some []
  | v :: rest =>
    match enc v, encL rest with
    | some a, some b => some (a :: b)
    | _, _ => none
/-- The entries of a map, in the order of the keys. -/
def encM : List (Str × Val) → Option (List Str)
  | [] => some []
  | (k, v) :: rest =>
    match enc v, encM rest with
    | some a, some b => some ((quote k ++ 0x3a :: a) :: b)
    | _, _ => none
end

/-! ## Decoder -/

/-- Space, tab, line feed, carriage return. -/
def isSpace (c : UInt8) : Bool := c = 0x20 || c = 9 || (c = 10 || c = 13)

/-- Skip white space. -/
def skip (s : Str) : Str := s.dropWhile isSpace

/-- One or more items read by `f`, separated by commas, up to `close`. `n` bounds their number. -/
def listOf {α : Type} (f : Str → Option (α × Str)) (close : UInt8) : Nat → Str → Option (List α × Str)
  | 0, _ => none
  | n + 1, s =>
    match f s with
    | none => none
    | some (v, s) =>
      match skip s with
      | [] => none
      | c :: s =>
        if c = close then some ([v], s)
        else if c = 0x2c then
          match listOf f close n s with
          | some (l, s) => some (v :: l, s)
          | none => none
        else none

/-- None or more items; every item takes at least one byte. -/
def items {α : Type} (f : Str → Option (α × Str)) (close : UInt8) (s : Str) : Option (List α × Str) :=
  match skip s with
  | [] => none
  | c :: r => if c = close then some ([], r) else listOf f close s.length s

/-- A key, a colon and a value read by `f`. -/
def readPair (f : Str → Option (Val × Str)) (s : Str) : Option ((Str × Val) × Str) :=
  match skip s with
  | 0x22 :: s =>
    match unescape none s with
    | none => none
    | some (k, s) =>
      match skip s with
      | 0x3a :: s =>
        match f s with
        | none => none
        | some (v, s) => some ((k, v), s)
      | _ => none
  | _ => none

/-- `null`, `true`, `false` -/
def literal (s : Str) : Option (Val × Str) :=
  match s with
  | 0x6e :: 0x75 :: 0x6c :: 0x6c :: s => some (.nil, s)
  | 0x74 :: 0x72 :: 0x75 :: 0x65 :: s => some (.bool true, s)
  | 0x66 :: 0x61 :: 0x6c :: 0x73 :: 0x65 :: s => some (.bool false, s)
  | _ => none

/-- Decoding one value into an `any` when `levels` more levels of nesting are allowed. -/
def dec (levels : Nat) (s : Str) : Option (Val × Str) :=
  match skip s with
  | [] => none
  | c :: s =>
    if c = 0x22 then
      match unescape none s with
      | some (t, s) => some (.str t, s)
      | none => none
    else if c = 0x5b then
      match levels with
      | 0 => none
      | levels + 1 =>
        match items (dec levels) 0x5d s with
        | some (l, s) => some (.arr l, s)
        | none => none
    else if c = 0x7b then
      match levels with
      | 0 => none
      | levels + 1 =>
        match items (readPair (dec levels)) 0x7d s with
        | some (ps, s) => some (.map (ps.foldl (fun d p => dset d p.1 p.2) []), s)
        | none => none
    else if numChar c then
      let t := (c :: s).takeWhile numChar
      if isNumber t then
        match number t with
        | some f => some (.f64 f, (c :: s).dropWhile numChar)
        | none => none
      else none
    else literal (c :: s)

/-- `Unmarshal` into a `[]any`: a list, or null for the nil slice; only white space may follow. -/
def decode (s : Str) : Option (List Val) :=
  match dec 10000 s with
  | some (.arr l, rest) => if skip rest = [] then some l else none
  | some (.nil, rest) => if skip rest = [] then some [] else none
  | _ => none

/-- The JSON package as serializers/json.go:13-21 uses it. -/
def codec : Codec where
  enc l := enc (.arr l)
  dec := decode

end Wamp.Json
