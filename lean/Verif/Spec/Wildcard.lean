import Verif.Model.Base
/-!
# What wildcard patterns match

`wildcardMatch` (dealer.go:386-389) is `path.Match` of the Go library with errors read as "no match".  Its documentation: `*` matches any
sequence of non-`/` characters, other characters match themselves, except `?`, `[` and `\`, about which nothing is said here.
-/
namespace Wamp.Wildcard

/-- `*` -/
def star : UInt8 := 42
/-- `/` -/
def slash : UInt8 := 47
/-- `.` -/
def dot : UInt8 := 46

/-- Neither `?` nor `[` nor `\`. -/
def ordinary (c : UInt8) : Prop := c ≠ 63 ∧ c ≠ 91 ∧ c ≠ 92

instance : DecidablePred ordinary := fun c => inferInstanceAs (Decidable (c ≠ 63 ∧ c ≠ 91 ∧ c ≠ 92))

/-- Pattern `p` matches `s`. -/
inductive Glob : Str → Str → Prop where
  | done : Glob [] []
  | char (c : UInt8) {p s : Str} : c ≠ star → Glob p s → Glob (c :: p) (c :: s)
  | none {p s : Str} : Glob p s → Glob (star :: p) s
  | more (c : UInt8) {p s : Str} : c ≠ slash → Glob (star :: p) s → Glob (star :: p) (c :: s)

/-- `w` (string, pattern) does what `path.Match` documents, for patterns without `?`, `[` and `\`. -/
def Documented (w : Str → Str → Bool) : Prop := ∀ p s, (∀ c ∈ p, ordinary c) → (w s p = true ↔ Glob p s)

/-- The components of a URI: what is between the dots. -/
def components : Str → List Str
  | [] => [[]]
  | c :: s => if c = dot then [] :: components s else
    match components s with
    | [] => [[c]]
    | x :: xs => (c :: x) :: xs

/-- The WAMP specification: same number of components, and those of the pattern are empty or equal. -/
def wampMatch : List Str → List Str → Prop
  | [], [] => True
  | p :: ps, s :: ss => (p = [] ∨ p = s) ∧ wampMatch ps ss
  | _, _ => False

/-- The chunks of a pattern with something put in for each `*` between them. -/
def fill : Str → List (Str × Str) → Str
  | x, [] => x
  | x, (g, y) :: rest => x ++ g ++ fill y rest

/-- The pattern made of these chunks. -/
def pattern : Str → List Str → Str
  | x, [] => x
  | x, y :: rest => x ++ star :: pattern y rest

end Wamp.Wildcard
