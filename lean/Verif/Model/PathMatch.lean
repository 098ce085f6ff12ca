import Verif.Model.Base
/-!
# `path.Match` of the Go standard library (Go 1.22), and `wildcardMatch`

The code calls `path.Match` in one place (dealer.go:386-389).  The library is not part of /repo; the definitions below follow the
library source (`src/path/match.go`, `unicode/utf8`) function by function.  Everywhere else in the model `wildcardMatch` is a parameter.
-/
namespace Wamp.PathMatch

/-- `lo ≤ b ≤ hi` for a byte. -/
def within (b : UInt8) (lo hi : Nat) : Bool := decide (lo ≤ b.toNat) && decide (b.toNat ≤ hi)

/-- The table `acceptRanges` of `unicode/utf8`: least second byte after the first byte `a`. -/
def loSecond (a : UInt8) : Nat := if a.toNat = 0xe0 then 0xa0 else if a.toNat = 0xf0 then 0x90 else 0x80
/-- The greatest second byte after the first byte `a`. -/
def hiSecond (a : UInt8) : Nat := if a.toNat = 0xed then 0x9f else if a.toNat = 0xf4 then 0x8f else 0xbf

/-- `utf8.DecodeRuneInString`: the first character and the number of bytes it takes.  An ill-formed sequence reads as U+FFFD of one
byte, the empty string as U+FFFD of none. -/
def decodeRune : Str → Nat × Nat
  | [] => (0xfffd, 0)
  | a :: s1 =>
    if a.toNat < 0x80 then (a.toNat, 1)
    else match s1 with
    | [] => (0xfffd, 1)
    | b :: s2 =>
      if within a 0xc2 0xdf then
        if within b 0x80 0xbf then ((a.toNat - 0xc0) * 0x40 + (b.toNat - 0x80), 2) else (0xfffd, 1)
      else match s2 with
      | [] => (0xfffd, 1)
      | c :: s3 =>
        if within a 0xe0 0xef then
          if within b (loSecond a) (hiSecond a) && within c 0x80 0xbf then
            ((a.toNat - 0xe0) * 0x1000 + (b.toNat - 0x80) * 0x40 + (c.toNat - 0x80), 3)
          else (0xfffd, 1)
        else match s3 with
        | [] => (0xfffd, 1)
        | d :: _ =>
          if within a 0xf0 0xf4 && within b (loSecond a) (hiSecond a)
              && within c 0x80 0xbf && within d 0x80 0xbf then
            ((a.toNat - 0xf0) * 0x40000 + (b.toNat - 0x80) * 0x1000 + (c.toNat - 0x80) * 0x40 + (d.toNat - 0x80), 4)
          else (0xfffd, 1)

/-- `getEsc`: a possibly escaped character of a character class, and what follows it; `none` is `ErrBadPattern`. -/
def getEsc (chunk : Str) : Option (Nat × Str) :=
  match chunk with
  | [] => none
  | c :: rest =>
    if c = 45 ∨ c = 93 then none                                       -- '-' or ']'
    else
      let chunk := if c = 92 then rest else chunk                      -- '\\'
      if chunk = [] then none
      else
        let (r, n) := decodeRune chunk
        if r = 0xfffd ∧ n = 1 then none
        else
          let nchunk := chunk.drop n
          if nchunk = [] then none else some (r, nchunk)

/-- A character takes at least one byte. -/
theorem decodeRune_pos {s : Str} (h : s ≠ []) : 0 < (decodeRune s).2 := by
  unfold decodeRune
  repeat' split
  all_goals first | exact absurd rfl h | exact Nat.succ_pos _

/-- `getEsc` makes progress. -/
theorem getEsc_lt {chunk rest : Str} {r : Nat} (h : getEsc chunk = some (r, rest)) : rest.length < chunk.length := by
  unfold getEsc at h
  split at h
  · cases h
  · rename_i c t
    split at h
    · cases h
    · simp only at h
      generalize hk : (if c = 92 then t else c :: t) = k at h
      have hl : k.length ≤ (c :: t).length := by
        rw [← hk]; split <;> simp
      split at h
      · cases h
      · rename_i hne
        split at h
        · cases h
        · split at h
          · cases h
          · cases h
            have := decodeRune_pos hne
            have : 0 < k.length := List.length_pos_iff.2 hne
            simp only [List.length_drop]
            omega

/-- The loop "parse all ranges" of `matchChunk`: whether `r` is in one of the ranges, and what follows the `]`. -/
def ranges (chunk : Str) (r nrange : Nat) (hit : Bool) : Res (Bool × Str) :=
  if 0 < nrange ∧ chunk.head? = some 93 then .ok (hit, chunk.tail)
  else
    match h : getEsc chunk with
    | none => .err
    | some (lo, chunk1) =>
      match h1 : chunk1 with
      | [] => .panic                                                    -- `chunk[0]`
      | d :: chunk2 =>
        if d = 45 then
          match h2 : getEsc chunk2 with
          | none => .err
          | some (hi, chunk3) => ranges chunk3 r (nrange + 1) (hit || (decide (lo ≤ r) && decide (r ≤ hi)))
        else ranges chunk1 r (nrange + 1) (hit || (decide (lo ≤ r) && decide (r ≤ lo)))
termination_by chunk.length
decreasing_by
  · have := getEsc_lt h
    have := getEsc_lt h2
    simp_all
    omega
  · have := getEsc_lt h
    simp_all

/-- What is left after a class is shorter. -/
theorem ranges_lt {chunk : Str} {r n : Nat} {hit m : Bool} {rest : Str} (h : ranges chunk r n hit = .ok (m, rest)) :
    rest.length ≤ chunk.length := by
  fun_induction ranges chunk r n hit with
  | case1 => cases h; simp
  | case2 => cases h
  | case3 => cases h
  | case4 => cases h
  | case5 =>
    rename_i h2 _ h1 ih
    have := getEsc_lt h1
    have := getEsc_lt h2
    have := ih h
    simp only [List.length_cons] at *
    omega
  | case6 =>
    rename_i _ h1 ih
    have := getEsc_lt h1
    have := ih h
    omega

/-- What follows the `^` of a negated class. -/
def afterCaret (chunk : Str) : Str := if chunk.head? = some 94 then chunk.tail else chunk

theorem afterCaret_le (chunk : Str) : (afterCaret chunk).length ≤ chunk.length := by
  unfold afterCaret; split <;> simp

/-- `matchChunk`: `.ok (some rest)` is a match, `.ok none` none, `.err` is `ErrBadPattern`.  After the match has failed the loop goes on
to check the pattern. -/
def matchChunk (chunk s : Str) (failed : Bool) : Res (Option Str) :=
  match chunk with
  | [] => .ok (if failed then none else some s)
  | c :: chunk1 =>
    let failed := failed || s.isEmpty
    if c = 91 then                                                      -- '['
      let (r, s) := if failed then (0, s) else ((decodeRune s).1, s.drop (decodeRune s).2)
      let negated : Bool := chunk1.head? = some 94                      -- '^'
      match _h : ranges (afterCaret chunk1) r 0 false with
      | .ok (hit, chunk2) => matchChunk chunk2 s (failed || (hit == negated))
      | .err => .err
      | .panic => .panic
    else if c = 63 then                                                 -- '?'
      if failed then matchChunk chunk1 s true
      else match s with
        | [] => .panic                                                  -- `s[0]`
        | b :: _ => matchChunk chunk1 (s.drop (decodeRune s).2) (b == 47)
    else if c = 92 then                                                 -- '\\'
      match chunk1 with
      | [] => .err
      | c' :: chunk2 =>
        if failed then matchChunk chunk2 s true
        else match s with
          | [] => .panic
          | b :: s' => matchChunk chunk2 s' (c' != b)
    else
      if failed then matchChunk chunk1 s true
      else match s with
        | [] => .panic
        | b :: s' => matchChunk chunk1 s' (c != b)
termination_by chunk.length
decreasing_by
  · have := ranges_lt _h
    have := afterCaret_le chunk1
    simp only [List.length_cons]
    omega
  all_goals (simp_all <;> omega)

/-- The first loop of `scanChunk`: whether there are stars at the beginning, and what follows them. -/
def skipStars : Str → Bool × Str
  | [] => (false, [])
  | c :: p => if c = 42 then (true, (skipStars p).2) else (false, c :: p)

/-- The second loop of `scanChunk`: the text up to the next star outside a character class, and the rest. -/
def scan (inrange : Bool) : Str → Str × Str
  | [] => ([], [])
  | c :: p =>
    if c = 92 then
      match p with
      | [] => ([c], [])
      | d :: p' => (c :: d :: (scan inrange p').1, (scan inrange p').2)
    else if c = 91 then (c :: (scan true p).1, (scan true p).2)
    else if c = 93 then (c :: (scan false p).1, (scan false p).2)
    else if c = 42 then
      if inrange then (c :: (scan inrange p).1, (scan inrange p).2) else ([], c :: p)
    else (c :: (scan inrange p).1, (scan inrange p).2)

/-- `scanChunk` -/
def scanChunk (pattern : Str) : Bool × Str × Str :=
  let (star, p) := skipStars pattern
  (star, scan false p)

/-- The loop "Look for match skipping i+1 bytes": the rest of the name after a match; with `last` only the empty rest counts. -/
def trySkip (chunk : Str) (last : Bool) : Str → Res (Option Str)
  | [] => .ok none
  | b :: name =>
    if b = 47 then .ok none
    else match matchChunk chunk name false with
      | .ok (some t) => if last && !t.isEmpty then trySkip chunk last name else .ok (some t)
      | .ok none => trySkip chunk last name
      | .err => .err
      | .panic => .panic

theorem skipStars_le (p : Str) : (skipStars p).2.length ≤ p.length := by
  induction p with
  | nil => simp [skipStars]
  | cons c p ih =>
    unfold skipStars
    split
    · simp only [List.length_cons]; omega
    · simp

theorem scan_le (i : Bool) (p : Str) : (scan i p).2.length ≤ p.length := by
  fun_induction scan i p <;> simp_all <;> omega

/-- `scanChunk` makes progress. -/
theorem scanChunk_lt {p : Str} (h : p ≠ []) : (scanChunk p).2.2.length < p.length := by
  unfold scanChunk
  cases p with
  | nil => exact absurd rfl h
  | cons c p =>
    simp only
    unfold skipStars
    split
    · have := skipStars_le p
      have := scan_le false (skipStars p).2
      simp only [List.length_cons]
      omega
    · rename_i hc
      unfold scan
      simp only [hc, if_false, List.length_cons]
      split
      · split
        · simp
        · rename_i d p'
          have := scan_le false p'
          simp only [List.length_cons]; omega
      · split
        · have := scan_le true p; simp only; omega
        · split
          · have := scan_le false p; simp only; omega
          · have := scan_le false p; simp only; omega

/-- The check "that the remainder of the pattern is syntactically valid". -/
def checkRest (pattern : Str) : Res Bool :=
  if _h : pattern = [] then .ok false
  else
    match matchChunk (scanChunk pattern).2.1 [] false with
    | .ok _ => checkRest (scanChunk pattern).2.2
    | .err => .err
    | .panic => .panic
termination_by pattern.length
decreasing_by exact scanChunk_lt _h

/-- `path.Match(pattern, name)` -/
def pathMatch (pattern name : Str) : Res Bool :=
  if _h : pattern = [] then .ok name.isEmpty
  else
    let star := (scanChunk pattern).1
    let chunk := (scanChunk pattern).2.1
    let rest := (scanChunk pattern).2.2
    if star ∧ chunk = [] then .ok (!name.contains 47)                   -- trailing `*`
    else
      let skip := fun (_ : Unit) =>
        if star then
          match trySkip chunk rest.isEmpty name with
          | .ok (some t) => pathMatch rest t
          | .ok none => checkRest rest
          | .err => .err
          | .panic => .panic
        else checkRest rest
      match matchChunk chunk name false with
      | .ok (some t) => if t.isEmpty || !rest.isEmpty then pathMatch rest t else skip ()
      | .ok none => skip ()
      | .err => .err
      | .panic => .panic
termination_by pattern.length
decreasing_by all_goals exact scanChunk_lt _h

/-- `wildcardMatch` (dealer.go:386-389): an error counts as no match. -/
def wildcardMatch (s pattern : Str) : Bool :=
  match pathMatch pattern s with
  | .ok b => b
  | _ => false

end Wamp.PathMatch
