import Verif.Model.Base
/-!
# The patterns of `path.Match`, as its documentation describes them

    pattern:    { term }
    term:       '*'                                  any sequence of characters except '/'
                '?'                                  any single character except '/'
                '[' [ '^' ] { character-range } ']'  character class (must be non-empty)
                c                                    character c (c != '*', '?', '\\', '[')
                '\\' c                               character c
    character-range:
                c                                    character c (c != '\\', '-', ']')
                '\\' c                               character c
                lo '-' hi                            character c for lo <= c <= hi
-/
namespace Wamp.PathMatch

/-- A Unicode character that UTF-8 can express. -/
def scalar (r : Nat) : Prop := r < 0xd800 ∨ 0xe000 ≤ r ∧ r < 0x110000

/-- The UTF-8 encoding of a character. -/
def utf8 (r : Nat) : Str :=
  if r < 0x80 then [UInt8.ofNat r]
  else if r < 0x800 then [UInt8.ofNat (0xc0 + r / 0x40), UInt8.ofNat (0x80 + r % 0x40)]
  else if r < 0x10000 then
    [UInt8.ofNat (0xe0 + r / 0x1000), UInt8.ofNat (0x80 + r / 0x40 % 0x40), UInt8.ofNat (0x80 + r % 0x40)]
  else [UInt8.ofNat (0xf0 + r / 0x40000), UInt8.ofNat (0x80 + r / 0x1000 % 0x40), UInt8.ofNat (0x80 + r / 0x40 % 0x40),
    UInt8.ofNat (0x80 + r % 0x40)]

/-- A term of a pattern.  A class is a list of ranges, with `neg` it is the characters outside them. -/
inductive Item where
  | lit (b : UInt8)
  | any
  | cls (neg : Bool) (ranges : List (Nat × Nat))
  | star
  deriving DecidableEq, Repr

/-- The ways to write a character in a class. -/
inductive CharText : Nat → Str → Prop where
  | plain {r : Nat} : scalar r → r ≠ 92 → r ≠ 45 → r ≠ 93 → CharText r (utf8 r)
  | escaped {r : Nat} : scalar r → CharText r (92 :: utf8 r)

/-- The ways to write the ranges of a class. -/
inductive RangesText : List (Nat × Nat) → Str → Prop where
  | nil : RangesText [] []
  | one {r : Nat} {t u : Str} {rs : List (Nat × Nat)} : CharText r t → RangesText rs u → RangesText ((r, r) :: rs) (t ++ u)
  | span {lo hi : Nat} {t t' u : Str} {rs : List (Nat × Nat)} :
    CharText lo t → CharText hi t' → RangesText rs u → RangesText ((lo, hi) :: rs) (t ++ 45 :: (t' ++ u))

/-- `Text items p`: the pattern `p` consists of these terms. -/
inductive Text : List Item → Str → Prop where
  | nil : Text [] []
  | star {is : List Item} {p : Str} : Text is p → Text (.star :: is) (42 :: p)
  | any {is : List Item} {p : Str} : Text is p → Text (.any :: is) (63 :: p)
  | cls {rs : List (Nat × Nat)} {t : Str} {is : List Item} {p : Str} : rs ≠ [] → RangesText rs t → t.head? ≠ some 94 →
    Text is p → Text (.cls false rs :: is) (91 :: (t ++ 93 :: p))
  | negated {rs : List (Nat × Nat)} {t : Str} {is : List Item} {p : Str} : rs ≠ [] → RangesText rs t →
    Text is p → Text (.cls true rs :: is) (91 :: 94 :: (t ++ 93 :: p))
  | lit {b : UInt8} {is : List Item} {p : Str} : b ≠ 42 → b ≠ 63 → b ≠ 92 → b ≠ 91 → Text is p → Text (.lit b :: is) (b :: p)
  | escaped {b : UInt8} {is : List Item} {p : Str} : Text is p → Text (.lit b :: is) (92 :: b :: p)

/-- A term other than `*` accepts this character. -/
def Item.accepts : Item → UInt8 → Prop
  | .lit b, c => c = b
  | .any, c => c ≠ 47
  | .cls neg rs, c => (∃ lh ∈ rs, lh.1 ≤ c.toNat ∧ c.toNat ≤ lh.2) ↔ neg = false
  | .star, _ => False

instance (i : Item) (c : UInt8) : Decidable (i.accepts c) := by
  cases i <;> unfold Item.accepts <;> infer_instance

/-- The terms match the name.  Characters are bytes here: the theorems that speak of `?` and classes are about ASCII names. -/
inductive Matches : List Item → Str → Prop where
  | done : Matches [] []
  | one {i : Item} {c : UInt8} {is : List Item} {s : Str} : i.accepts c → Matches is s → Matches (i :: is) (c :: s)
  | none {is : List Item} {s : Str} : Matches is s → Matches (.star :: is) s
  | more {c : UInt8} {is : List Item} {s : Str} : c ≠ 47 → Matches (.star :: is) s → Matches (.star :: is) (c :: s)

/-- The name is ASCII text, or the pattern consists of stars and characters only. -/
def Bytewise (is : List Item) (s : Str) : Prop := (∀ c ∈ s, c.toNat < 0x80) ∨ ∀ i ∈ is, i = .star ∨ ∃ b, i = .lit b

/-- None of the classes contains the character `/`. -/
def NoSlash (is : List Item) : Prop := ∀ neg rs, Item.cls neg rs ∈ is → ¬(Item.cls neg rs).accepts 47

end Wamp.PathMatch
