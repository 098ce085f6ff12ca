import Verif.Lemmas.FormatsCbor
/-!
# MsgPack: the serializer against the specification of the format
-/
namespace Wamp.Formats
open Wamp Wamp.Cbor Wamp.MsgPack

/-! ### Reading -/

theorem readNum_of (s rest : Str) : readNum s.length (s ++ rest) = some (bigEndian s, rest) := by
  rw [readNum, split_append]
  simp only [bigEndian_ofBE]

theorem strLen_read {n : Nat} {h : Str} (hh : StrLen n h) : ∃ c t k len, h = c :: t ∧ MsgPack.item c.toNat = .str k len ∧
    ∀ rest, readLen k len (t ++ rest) = some (n, rest) := by
  cases hh with
  | fix _ hn =>
    refine ⟨_, [], 0, n, rfl, ?_, fun rest => rfl⟩
    rw [toNat_ofNat (by omega), MsgPack.item.eq_def, if_neg (by omega), if_neg (by omega), if_neg (by omega), if_pos (by omega), Nat.add_sub_cancel_left]
  | code c s hc =>
    refine ⟨c, s, s.length, 0, rfl, ?_, fun rest => ?_⟩
    · simp only [List.mem_cons, Prod.mk.injEq, List.not_mem_nil, or_false] at hc
      rcases hc with ⟨rfl, h⟩ | ⟨rfl, h⟩ | ⟨rfl, h⟩ <;> rw [h] <;> rfl
    · simp only [List.mem_cons, Prod.mk.injEq, List.not_mem_nil, or_false] at hc
      rw [readLen, if_neg (by omega), readNum_of]

theorem listLen_read {n : Nat} {h : Str} (hh : ListLen n h) : ∃ c t k len, h = c :: t ∧ MsgPack.item c.toNat = .arr k len ∧
    ∀ rest, readLen k len (t ++ rest) = some (n, rest) := by
  cases hh with
  | fix _ hn =>
    refine ⟨_, [], 0, n, rfl, ?_, fun rest => rfl⟩
    rw [toNat_ofNat (by omega), MsgPack.item.eq_def, if_neg (by omega), if_neg (by omega), if_pos (by omega), Nat.add_sub_cancel_left]
  | code c s hc =>
    refine ⟨c, s, s.length, 0, rfl, ?_, fun rest => ?_⟩
    · simp only [List.mem_cons, Prod.mk.injEq, List.not_mem_nil, or_false] at hc
      rcases hc with ⟨rfl, h⟩ | ⟨rfl, h⟩ <;> rw [h] <;> rfl
    · simp only [List.mem_cons, Prod.mk.injEq, List.not_mem_nil, or_false] at hc
      rw [readLen, if_neg (by omega), readNum_of]

theorem dictLen_read {n : Nat} {h : Str} (hh : DictLen n h) : ∃ c t k len, h = c :: t ∧ MsgPack.item c.toNat = .map k len ∧
    ∀ rest, readLen k len (t ++ rest) = some (n, rest) := by
  cases hh with
  | fix _ hn =>
    refine ⟨_, [], 0, n, rfl, ?_, fun rest => rfl⟩
    rw [toNat_ofNat (by omega), MsgPack.item.eq_def, if_neg (by omega), if_pos (by omega), Nat.add_sub_cancel_left]
  | code c s hc =>
    refine ⟨c, s, s.length, 0, rfl, ?_, fun rest => ?_⟩
    · simp only [List.mem_cons, Prod.mk.injEq, List.not_mem_nil, or_false] at hc
      rcases hc with ⟨rfl, h⟩ | ⟨rfl, h⟩ <;> rw [h] <;> rfl
    · simp only [List.mem_cons, Prod.mk.injEq, List.not_mem_nil, or_false] at hc
      rw [readLen, if_neg (by omega), readNum_of]

theorem binLen_read {n : Nat} {h : Str} (hh : BinLen n h) : ∃ c t k, h = c :: t ∧ MsgPack.item c.toNat = .bin k ∧
    ∀ rest, readNum k (t ++ rest) = some (n, rest) := by
  cases hh with
  | fix _ hn => exact absurd hn (by omega)
  | code c s hc =>
    refine ⟨c, s, s.length, rfl, ?_, fun rest => readNum_of s rest⟩
    simp only [List.mem_cons, Prod.mk.injEq, List.not_mem_nil, or_false] at hc
    rcases hc with ⟨rfl, h⟩ | ⟨rfl, h⟩ | ⟨rfl, h⟩ <;> rw [h] <;> rfl

theorem item_val {c : Nat} {v : Val} (h : MsgPack.item c = .val v) (k : Str) : v ≠ .str k := by
  unfold MsgPack.item at h
  repeat' split at h
  all_goals first | (cases h; done) | (injection h with h; subst h; simp)

theorem item_num {c n : Nat} {f : Nat → Val} (h : MsgPack.item c = .num n f) (m : Nat) (k : Str) : f m ≠ .str k := by
  unfold MsgPack.item at h
  repeat' split at h
  all_goals first | (cases h; done) | (injection h with _ h; subst h; simp)

/-- A string is a key. -/
theorem msgpack_readText {fuel : Nat} {s k rest : Str} (h : MsgPack.dec fuel s = some (.str k, rest)) : MsgPack.readText s = some (k, rest) := by
  rw [MsgPack.dec.eq_def] at h
  cases s with
  | nil => cases h
  | cons c s =>
    simp only at h
    rw [MsgPack.readText]
    cases hi : MsgPack.item c.toNat <;> simp only [hi] at h ⊢
    case str k' len =>
      split at h
      · split at h
        · rename_i hs
          rw [hs]
          injection h with h; injection h with h1 h2
          injection h1 with h1
          rw [h1, h2]
        · cases h
      · cases h
    case num k' f =>
      split at h
      · injection h with h; injection h with h1 h2
        exact absurd h1 (item_num hi _ _)
      · cases h
    case val v =>
      injection h with h; injection h with h1 h2
      exact absurd h1 (item_val hi _)
    all_goals repeat (first | cases h | split at h)

/-- Keys and values one after the other are entries. -/
theorem msgpack_pairs (fuel : Nat) (ps : List (Str × Val)) (s rest : Str)
    (h : seqOf (MsgPack.dec fuel) (ps.flatMap fun p => [.str p.1, p.2]).length s = some (ps.flatMap fun p => [.str p.1, p.2], rest)) :
    seqOf (MsgPack.readPair (MsgPack.dec fuel)) ps.length s = some (ps, rest) := by
  induction ps generalizing s with
  | nil =>
    simp [seqOf] at h ⊢
    exact h
  | cons p ps ih =>
    obtain ⟨k, v⟩ := p
    simp only [List.flatMap_cons, List.cons_append, List.nil_append, List.length_cons, seqOf] at h
    cases h1 : MsgPack.dec fuel s with
    | none => simp [h1] at h
    | some r =>
      obtain ⟨w, s1⟩ := r
      simp only [h1] at h
      cases h2 : MsgPack.dec fuel s1 with
      | none => simp [h2] at h
      | some r =>
        obtain ⟨w2, s2⟩ := r
        simp only [h2] at h
        cases h3 : seqOf (MsgPack.dec fuel) (ps.flatMap fun p => [.str p.1, p.2]).length s2 with
        | none => rw [h3] at h; cases h
        | some r =>
          obtain ⟨l, s3⟩ := r
          simp only [h3, Option.some.injEq, Prod.mk.injEq, List.cons.injEq] at h
          obtain ⟨⟨rfl, rfl, rfl⟩, rfl⟩ := h
          rw [List.length_cons, seqOf, MsgPack.readPair, msgpack_readText h1]
          simp only [h2, ih s2 h3]

/-- A value with this content, of the types that decoders make. -/
def Stands (v : Val) (d : Data) : Prop := content v = d ∧ fresh v = true

/-- Lists of the same length whose elements stand for each other. -/
inductive StandsL : List Val → List Data → Prop where
  | nil : StandsL [] []
  | cons {v d vs ds} : Stands v d → StandsL vs ds → StandsL (v :: vs) (d :: ds)

theorem StandsL.contents {vs : List Val} {ds : List Data} (h : StandsL vs ds) : contents vs = ds := by
  induction h with
  | nil => rfl
  | cons h _ ih => rw [Formats.contents, h.1, ih]

theorem StandsL.isFresh {vs : List Val} {ds : List Data} (h : StandsL vs ds) : freshL vs = true := by
  induction h with
  | nil => rfl
  | cons h _ ih => rw [freshL, h.2, ih]; rfl

theorem StandsL.length {vs : List Val} {ds : List Data} (h : StandsL vs ds) : vs.length = ds.length := by
  induction h with
  | nil => rfl
  | cons _ _ ih => rw [List.length_cons, List.length_cons, ih]

/-- What stands for keys and values one after the other. -/
theorem StandsL.pairs {d : List (Str × Data)} {vs : List Val} (h : StandsL vs (d.flatMap fun p => [.text p.1, p.2])) :
    ∃ ps : List (Str × Val), vs = ps.flatMap (fun p => [.str p.1, p.2]) ∧ ps.map (fun p => (p.1, content p.2)) = d ∧ ∀ p ∈ ps, fresh p.2 = true := by
  induction d generalizing vs with
  | nil => cases h; exact ⟨[], rfl, rfl, by simp⟩
  | cons p d ih =>
    obtain ⟨k, x⟩ := p
    rw [List.flatMap_cons] at h
    cases h with
    | cons h1 h2 =>
      cases h2 with
      | cons h2 h3 =>
        obtain ⟨ps, e1, e2, e3⟩ := ih h3
        refine ⟨(k, _) :: ps, by rw [List.flatMap_cons, ← e1, fresh_text h1.2 h1.1]; rfl, ?_, ?_⟩
        · rw [List.map_cons, e2, h2.1]
        · intro p hp
          rcases List.mem_cons.1 hp with rfl | hp
          · exact h2.2
          · exact e3 p hp

theorem ordered_sorted (ps : List (Str × Val)) (h : Ordered (ps.map fun p => (p.1, content p.2))) : sortedKeys ps = true := by
  induction ps with
  | nil => rfl
  | cons p ps ih =>
    rw [List.map_cons] at h
    cases h with
    | cons h1 h2 =>
      simp only [sortedKeys, Bool.and_eq_true, List.all_eq_true]
      exact ⟨fun q hq => h1 _ (List.mem_map.2 ⟨q, hq, rfl⟩), ih h2⟩

theorem signed_twos (s : Str) : signed s.length (bigEndian s) = twos s := by
  unfold signed twos
  rfl

/-- The reader understands everything the specification allows. -/
theorem msgpack_read {ds : List Data} {b : Str} (h : Formats.MsgPack ds b) : ∀ (fuel : Nat), b.length ≤ fuel → ∀ (rest : Str) (count levels : Nat),
    (∀ d ∈ ds, Within count levels d) → ∃ vs, StandsL vs ds ∧ seqOf (MsgPack.dec fuel) ds.length (b ++ rest) = some (vs, rest) := by
  -- one object, then the others
  have cons : ∀ {d : Data} {v : Val} {ds : List Data} {a b : Str} {fuel : Nat} {rest : Str}, Stands v d →
      MsgPack.dec fuel (a ++ (b ++ rest)) = some (v, b ++ rest) →
      (∃ vs, StandsL vs ds ∧ seqOf (MsgPack.dec fuel) ds.length (b ++ rest) = some (vs, rest)) →
      ∃ vs, StandsL vs (d :: ds) ∧ seqOf (MsgPack.dec fuel) (d :: ds).length (a ++ b ++ rest) = some (vs, rest) := by
    rintro d v ds a b fuel rest h0 h1 ⟨vs, h2, h3⟩
    refine ⟨v :: vs, .cons h0 h2, ?_⟩
    rw [List.length_cons, seqOf, List.append_assoc, h1]
    simp only [h3]
  have plain : ∀ {v : Val} {d : Data}, content v = d → fresh v = true → Stands v d := fun h1 h2 => ⟨h1, h2⟩
  have num : ∀ (fuel : Nat) (c : UInt8) (s : Str) (f : Nat → Val) (r : Str), MsgPack.item c.toNat = .num s.length f →
      MsgPack.dec fuel (c :: s ++ r) = some (f (bigEndian s), r) := by
    intro fuel c s f r hc
    rw [List.cons_append, MsgPack.dec.eq_def]
    simp only [hc, readNum_of]
  induction h with
  | done => intro fuel hf rest c l _; exact ⟨[], .nil, rfl⟩
  | null _ ih =>
    intro fuel hf rest c l hw
    exact cons (a := [0xc0]) (v := .nil) (plain rfl rfl) (MsgPack.dec_val fuel 0xc0 _ rfl _) (ih fuel (by simp at hf; omega) rest c l fun d hd => hw d (List.mem_cons_of_mem _ hd))
  | no _ ih =>
    intro fuel hf rest c l hw
    exact cons (a := [0xc2]) (v := .bool false) (plain rfl rfl) (MsgPack.dec_val fuel 0xc2 _ rfl _) (ih fuel (by simp at hf; omega) rest c l fun d hd => hw d (List.mem_cons_of_mem _ hd))
  | yes _ ih =>
    intro fuel hf rest c l hw
    exact cons (a := [0xc3]) (v := .bool true) (plain rfl rfl) (MsgPack.dec_val fuel 0xc3 _ rfl _) (ih fuel (by simp at hf; omega) rest c l fun d hd => hw d (List.mem_cons_of_mem _ hd))
  | @posfix n ds b hn _ ih =>
    intro fuel hf rest c l hw
    refine cons (a := [UInt8.ofNat n]) (v := .int .i8 n) (plain rfl rfl) (MsgPack.dec_val fuel _ _ ?_ _) (ih fuel (by simp at hf; omega) rest c l fun d hd => hw d (List.mem_cons_of_mem _ hd))
    rw [toNat_ofNat (by omega), MsgPack.item.eq_def, if_pos (by omega)]
  | @negfix n ds b hn _ ih =>
    intro fuel hf rest c l hw
    refine cons (a := [UInt8.ofNat (0xe0 + n)]) (v := .int .i8 (n - 32)) (plain rfl rfl) (MsgPack.dec_val fuel _ _ ?_ _) (ih fuel (by simp at hf; omega) rest c l fun d hd => hw d (List.mem_cons_of_mem _ hd))
    rw [toNat_ofNat (by omega), MsgPack.item.eq_def, if_neg (by omega), if_neg (by omega), if_neg (by omega), if_neg (by omega), if_pos (by omega)]
    congr 2
    omega
  | @unsigned c s ds b hc _ ih =>
    intro fuel hf rest count l hw
    rw [← List.cons_append]
    have ih' := ih fuel (by simp at hf; omega) rest count l fun d hd => hw d (List.mem_cons_of_mem _ hd)
    simp only [List.mem_cons, Prod.mk.injEq, List.not_mem_nil, or_false] at hc
    rcases hc with ⟨rfl, h⟩ | ⟨rfl, h⟩ | ⟨rfl, h⟩ | ⟨rfl, h⟩
    · exact cons (plain rfl rfl) (num fuel 0xcc s (.uint .u8) _ (by rw [h]; rfl)) ih'
    · exact cons (plain rfl rfl) (num fuel 0xcd s (.uint .u16) _ (by rw [h]; rfl)) ih'
    · exact cons (plain rfl rfl) (num fuel 0xce s (.uint .u32) _ (by rw [h]; rfl)) ih'
    · exact cons (plain rfl rfl) (num fuel 0xcf s (.uint .u64) _ (by rw [h]; rfl)) ih'
  | @signed c s ds b hc _ ih =>
    intro fuel hf rest count l hw
    rw [← List.cons_append]
    have ih' := ih fuel (by simp at hf; omega) rest count l fun d hd => hw d (List.mem_cons_of_mem _ hd)
    simp only [List.mem_cons, Prod.mk.injEq, List.not_mem_nil, or_false] at hc
    rcases hc with ⟨rfl, h⟩ | ⟨rfl, h⟩ | ⟨rfl, h⟩ | ⟨rfl, h⟩
    · exact cons (plain (by rw [← signed_twos]; rfl) rfl) (num fuel 0xd0 s (fun n => .int .i8 (signed s.length n)) _ (by rw [h]; rfl)) ih'
    · exact cons (plain (by rw [← signed_twos]; rfl) rfl) (num fuel 0xd1 s (fun n => .int .i16 (signed s.length n)) _ (by rw [h]; rfl)) ih'
    · exact cons (plain (by rw [← signed_twos]; rfl) rfl) (num fuel 0xd2 s (fun n => .int .i32 (signed s.length n)) _ (by rw [h]; rfl)) ih'
    · exact cons (plain (by rw [← signed_twos]; rfl) rfl) (num fuel 0xd3 s (fun n => .int .i64 (signed s.length n)) _ (by rw [h]; rfl)) ih'
  | @single s ds b hs _ ih =>
    intro fuel hf rest count l hw
    rw [← List.cons_append]
    have := bigEndian_lt s
    rw [hs] at this
    refine cons (plain ?_ rfl) (num fuel 0xca s (fun n => .f32 (floatOf 8 23 n)) _ (by rw [hs]; rfl))
      (ih fuel (by simp at hf; omega) rest count l fun d hd => hw d (List.mem_cons_of_mem _ hd))
    rw [value_floatOf Formats.single rfl _ this]
    rfl
  | @double s ds b hs _ ih =>
    intro fuel hf rest count l hw
    rw [← List.cons_append]
    have := bigEndian_lt s
    rw [hs] at this
    refine cons (plain ?_ rfl) (num fuel 0xcb s (fun n => .f64 (floatOf 11 52 n)) _ (by rw [hs]; rfl))
      (ih fuel (by simp at hf; omega) rest count l fun d hd => hw d (List.mem_cons_of_mem _ hd))
    rw [value_floatOf Formats.double rfl _ this]
    rfl
  | @text s h ds b hh _ ih =>
    intro fuel hf rest count l hw
    refine cons (v := .str s) ⟨rfl, rfl⟩ ?_
      (ih fuel (by simp at hf; omega) rest count l fun d hd => hw d (List.mem_cons_of_mem _ hd))
    obtain ⟨c, t, k, len, h1, h2, h3⟩ := strLen_read hh
    rw [h1, List.append_assoc, List.cons_append, MsgPack.dec.eq_def]
    simp only [h2, h3, split_append]
  | @bytes s h ds b hh _ ih =>
    intro fuel hf rest count l hw
    refine cons (v := .bytes s) (plain rfl rfl) ?_
      (ih fuel (by simp at hf; omega) rest count l fun d hd => hw d (List.mem_cons_of_mem _ hd))
    obtain ⟨c, t, k, h1, h2, h3⟩ := binLen_read hh
    rw [h1, List.append_assoc, List.cons_append, MsgPack.dec.eq_def]
    simp only [h2, h3, split_append]
  | @list l h a ds b hh _ _ ihl ih =>
    intro fuel hf rest count levels hw
    obtain ⟨c, t, k, len, h1, h2, h3⟩ := listLen_read hh
    subst h1
    have hf' : a.length + b.length + 1 ≤ fuel := by simp at hf; omega
    obtain ⟨hlv, hlen, hin⟩ := hw _ (List.mem_cons_self ..)
    obtain ⟨fuel, rfl⟩ : ∃ n, fuel = n + 1 := ⟨fuel - 1, by omega⟩
    obtain ⟨vs, g1, g2⟩ := ihl fuel (by omega) (b ++ rest) _ _ ((withinL_iff ..).1 hin)
    refine cons (v := .arr vs) (plain (by rw [content, g1.contents]) (by rw [fresh, g1.isFresh])) ?_
      (ih (fuel + 1) (by omega) rest count levels fun d hd => hw d (List.mem_cons_of_mem _ hd))
    rw [List.append_assoc, List.cons_append, MsgPack.dec.eq_def]
    simp only [h2, h3, g2]
  | @dict d d' h a ds b hh hp _ _ ihl ih =>
    intro fuel hf rest count levels hw
    obtain ⟨c, t, k, len, h1, h2, h3⟩ := dictLen_read hh
    subst h1
    have hf' : a.length + b.length + 1 ≤ fuel := by simp at hf; omega
    obtain ⟨hlv, hlen, hord, hin⟩ := hw _ (List.mem_cons_self ..)
    obtain ⟨fuel, rfl⟩ : ∃ n, fuel = n + 1 := ⟨fuel - 1, by omega⟩
    rw [withinD_iff] at hin
    obtain ⟨vs, g1, g2⟩ := ihl fuel (by omega) (b ++ rest) count (levels - 1) (by
      intro x hx
      rw [List.mem_flatMap] at hx
      obtain ⟨p, hp', hx⟩ := hx
      simp only [List.mem_cons, List.not_mem_nil, or_false] at hx
      rcases hx with rfl | rfl
      · trivial
      · exact hin p (hp.mem_iff.1 hp'))
    obtain ⟨ps, rfl, e2, e4⟩ := g1.pairs
    obtain ⟨qs, hq, e3⟩ := perm_map_inv (fun p : Str × Val => (p.1, content p.2)) (l := d) (ts := ps) (by rw [e2]; exact hp.symm)
    refine cons (v := .map qs) (plain (by rw [content, entries_map, e3]) (by rw [fresh, freshM_iff]; exact fun p hp => e4 p (hq.mem_iff.1 hp))) ?_
      (ih (fuel + 1) (by omega) rest count levels fun d hd => hw d (List.mem_cons_of_mem _ hd))
    have hl1 : (d'.flatMap fun p => [Data.text p.1, p.2]).length = (ps.flatMap fun p => [Val.str p.1, p.2]).length :=
      g1.length.symm
    rw [hl1] at g2
    have g3 := msgpack_pairs fuel ps _ _ g2
    have hl2 : ps.length = d.length := by rw [← hq.length_eq, e3, List.length_map]
    rw [hl2] at g3
    rw [List.append_assoc, List.cons_append, MsgPack.dec.eq_def]
    simp only [h2, h3, g3]
    rw [foldl_perm (d := qs) (ordered_sorted qs (by rw [← e3]; exact hord)) hq.symm]

/-! ### Writing -/

theorem strHead_of (n : Nat) (h : n < 2 ^ 32) : StrLen n (strHead n) := by
  have key : ∀ c k, (c, k) ∈ [((0xd9 : UInt8), 1), (0xda, 2), (0xdb, 4)] → n < 256 ^ k → StrLen n (c :: be k n) := by
    intro c k hc hn
    have := Len.code (fix := 0xa0) (small := 32) (codes := [(0xd9, 1), (0xda, 2), (0xdb, 4)]) c (be k n) (by rw [be_length]; exact hc)
    rwa [bigEndian_be _ _ hn] at this
  unfold strHead lenPrefix
  split
  · exact .fix n (by omega)
  · simp only
    split
    · exact key 0xd9 1 (by simp) (by simpa using ‹_›)
    split
    · exact key 0xda 2 (by simp) (by simpa using ‹_›)
    · exact key 0xdb 4 (by simp) (by simpa using h)

theorem arrHead_of (n : Nat) (h : n < 2 ^ 32) : ListLen n (arrHead n) := by
  have key : ∀ c k, (c, k) ∈ [((0xdc : UInt8), 2), (0xdd, 4)] → n < 256 ^ k → ListLen n (c :: be k n) := by
    intro c k hc hn
    have := Len.code (fix := 0x90) (small := 16) (codes := [(0xdc, 2), (0xdd, 4)]) c (be k n) (by rw [be_length]; exact hc)
    rwa [bigEndian_be _ _ hn] at this
  unfold arrHead lenPrefix
  split
  · exact .fix n (by omega)
  · simp only
    split
    · exact key 0xdc 2 (by simp) (by simpa using ‹_›)
    · exact key 0xdd 4 (by simp) (by simpa using h)

theorem mapHead_of (n : Nat) (h : n < 2 ^ 32) : DictLen n (mapHead n) := by
  have key : ∀ c k, (c, k) ∈ [((0xde : UInt8), 2), (0xdf, 4)] → n < 256 ^ k → DictLen n (c :: be k n) := by
    intro c k hc hn
    have := Len.code (fix := 0x80) (small := 16) (codes := [(0xde, 2), (0xdf, 4)]) c (be k n) (by rw [be_length]; exact hc)
    rwa [bigEndian_be _ _ hn] at this
  unfold mapHead lenPrefix
  split
  · exact .fix n (by omega)
  · simp only
    split
    · exact key 0xde 2 (by simp) (by simpa using ‹_›)
    · exact key 0xdf 4 (by simp) (by simpa using h)

theorem binHead_of (n : Nat) (h : n < 2 ^ 32) : BinLen n (binHead n) := by
  have key : ∀ c k, (c, k) ∈ [((0xc4 : UInt8), 1), (0xc5, 2), (0xc6, 4)] → n < 256 ^ k → BinLen n (c :: be k n) := by
    intro c k hc hn
    have := Len.code (fix := 0) (small := 0) (codes := [(0xc4, 1), (0xc5, 2), (0xc6, 4)]) c (be k n) (by rw [be_length]; exact hc)
    rwa [bigEndian_be _ _ hn] at this
  unfold binHead
  split
  · exact key 0xc4 1 (by simp) (by simpa using ‹_›)
  split
  · exact key 0xc5 2 (by simp) (by simpa using ‹_›)
  · exact key 0xc6 4 (by simp) (by simpa using h)

/-- The value is written the way the format wants it, whatever comes after it. -/
def MsgPackGood (order : List (Str × Str) → List (Str × Str)) (v : Val) : Prop :=
  ∃ b, MsgPack.enc order v = some b ∧ ∀ ds c, Formats.MsgPack ds c → Formats.MsgPack (content v :: ds) (b ++ c)

section
variable (order : List (Str × Str) → List (Str × Str))

theorem wr_uint (c : UInt8) (k n : Nat) (hc : (c, k) ∈ [((0xcc : UInt8), 1), (0xcd, 2), (0xce, 4), (0xcf, 8)]) (hn : n < 256 ^ k)
    (ds : List Data) (r : Str) (h : Formats.MsgPack ds r) : Formats.MsgPack (.int n :: ds) (c :: be k n ++ r) := by
  have := Formats.MsgPack.unsigned (c := c) (s := be k n) (by rw [be_length]; exact hc) h
  rwa [bigEndian_be _ _ hn] at this

theorem wr_int (c : UInt8) (k : Nat) (hk : 0 < k) (v : Int) (hc : (c, k) ∈ [((0xd0 : UInt8), 1), (0xd1, 2), (0xd2, 4), (0xd3, 8)])
    (h1 : -2 ^ (8 * k - 1) ≤ v) (h2 : v < 2 ^ (8 * k - 1))
    (ds : List Data) (r : Str) (h : Formats.MsgPack ds r) : Formats.MsgPack (.int v :: ds) (c :: beInt k v ++ r) := by
  obtain ⟨n, e1, e2, e3⟩ := beInt_eq k hk v h1 h2
  have := Formats.MsgPack.signed (c := c) (s := be k n) (by rw [be_length]; exact hc) h
  rw [← signed_twos, be_length, bigEndian_be _ _ e2, e3, ← e1] at this
  exact this

theorem wr_compactUint (n : Nat) (hn : n < 2 ^ 64) (ds : List Data) (r : Str) (h : Formats.MsgPack ds r) :
    Formats.MsgPack (.int n :: ds) (compactUint n ++ r) := by
  unfold compactUint
  split
  · exact .posfix (by omega) h
  split
  · exact wr_uint 0xcc 1 n (by simp) (by omega) ds r h
  split
  · exact wr_uint 0xcd 2 n (by simp) (by omega) ds r h
  split
  · exact wr_uint 0xce 4 n (by simp) (by omega) ds r h
  · exact wr_uint 0xcf 8 n (by simp) (by omega) ds r h

theorem wr_compactInt (v : Int) (h1 : -2 ^ 63 ≤ v) (h2 : v < 2 ^ 63) (ds : List Data) (r : Str) (h : Formats.MsgPack ds r) :
    Formats.MsgPack (.int v :: ds) (compactInt v ++ r) := by
  unfold compactInt
  split
  · have := wr_compactUint v.toNat (by omega) ds r h
    rwa [show ((v.toNat : Nat) : Int) = v by omega] at this
  split
  · have := Formats.MsgPack.negfix (n := (v + 32).toNat) (by omega) h
    rwa [show (((v + 32).toNat : Int) - 32) = v by omega, show 0xe0 + (v + 32).toNat = (v + 256).toNat by omega] at this
  split
  · exact wr_int 0xd0 1 (by decide) v (by simp) (by omega) (by omega) ds r h
  split
  · exact wr_int 0xd1 2 (by decide) v (by simp) (by omega) (by omega) ds r h
  split
  · exact wr_int 0xd2 4 (by decide) v (by simp) (by omega) (by omega) ds r h
  · exact wr_int 0xd3 8 (by decide) v (by simp) (by omega) (by omega) ds r h

theorem wr_str (s : Str) (h : short s.length = true) (ds : List Data) (c : Str) (hc : Formats.MsgPack ds c) :
    Formats.MsgPack (.text s :: ds) (strHead s.length ++ s ++ c) :=
  .text (strHead_of _ (by simpa [short] using h)) hc

theorem msgpackGood_int (k : IK) (v : Int) (h : inRange k v = true) : MsgPackGood order (.int k v) := by
  cases k <;> simp only [inRange, decide_eq_true_eq] at h <;> refine ⟨_, rfl, fun ds c hc => ?_⟩
  · exact wr_compactInt v h.1 h.2 ds c hc
  · exact wr_int 0xd0 1 (by decide) v (by simp) h.1 h.2 ds c hc
  · exact wr_int 0xd1 2 (by decide) v (by simp) h.1 h.2 ds c hc
  · exact wr_int 0xd2 4 (by decide) v (by simp) h.1 h.2 ds c hc
  · exact wr_int 0xd3 8 (by decide) v (by simp) h.1 h.2 ds c hc

theorem msgpackGood_uint (k : UK) (n : Nat) (h : inURange k n = true) : MsgPackGood order (.uint k n) := by
  cases k <;> simp only [inURange, decide_eq_true_eq] at h <;> refine ⟨_, rfl, fun ds c hc => ?_⟩
  · exact wr_compactUint n h ds c hc
  · exact wr_uint 0xcc 1 n (by simp) h ds c hc
  · exact wr_uint 0xcd 2 n (by simp) h ds c hc
  · exact wr_uint 0xce 4 n (by simp) h ds c hc
  · exact wr_uint 0xcf 8 n (by simp) h ds c hc

theorem msgpackGood_arr (l : List Val) (hl : short l.length = true) (h : ∀ v ∈ l, MsgPackGood order v) : MsgPackGood order (.arr l) := by
  have key : ∀ l : List Val, (∀ v ∈ l, MsgPackGood order v) → ∃ b, MsgPack.encL order l = some b ∧ Formats.MsgPack (contents l) b := by
    intro l
    induction l with
    | nil => intro _; exact ⟨[], rfl, .done⟩
    | cons v l ih =>
      intro h
      obtain ⟨b, h1, h2⟩ := ih fun q hq => h q (List.mem_cons_of_mem _ hq)
      obtain ⟨a, h3, h4⟩ := h v (List.mem_cons_self ..)
      exact ⟨a ++ b, by simp only [MsgPack.encL, h1, h3], h4 _ _ h2⟩
  obtain ⟨b, h1, h2⟩ := key l h
  refine ⟨_, by simp only [MsgPack.enc, h1, Option.map_some]; rfl, fun ds c hc => ?_⟩
  refine .list ?_ h2 hc
  rw [contents_map, List.length_map]
  exact arrHead_of _ (by simpa [short] using hl)

theorem msgpackGood_strs (l : List Str) (hl : short l.length = true) (h : ∀ s ∈ l, short s.length = true) : MsgPackGood order (.strs l) := by
  refine ⟨_, rfl, fun ds c hc => ?_⟩
  refine .list ?_ ?_ hc
  · rw [List.length_map]; exact arrHead_of _ (by simpa [short] using hl)
  · clear hl
    induction l with
    | nil => exact .done
    | cons s l ih => exact wr_str s (h s (List.mem_cons_self ..)) _ _ (ih fun q hq => h q (List.mem_cons_of_mem _ hq))

theorem msgpackGood_map (horder : ∀ l, (order l).Perm l) (d : Dict) (hl : short d.length = true)
    (h : ∀ p ∈ d, short p.1.length = true ∧ MsgPackGood order p.2) : MsgPackGood order (.map d) := by
  -- every entry with the bytes of its value
  have key : ∀ d : Dict, (∀ p ∈ d, short p.1.length = true ∧ MsgPackGood order p.2) →
      ∃ ts : List (Str × Str × Data), MsgPack.encM order d = some (ts.map fun t => (t.1, t.2.1)) ∧
        entries d = ts.map (fun t => (t.1, t.2.2)) ∧
        ∀ t ∈ ts, short t.1.length = true ∧ ∀ ds c, Formats.MsgPack ds c → Formats.MsgPack (t.2.2 :: ds) (t.2.1 ++ c) := by
    intro d
    induction d with
    | nil => intro _; exact ⟨[], rfl, rfl, by simp⟩
    | cons p d ih =>
      intro h
      obtain ⟨ts, h1, h2, h3⟩ := ih fun q hq => h q (List.mem_cons_of_mem _ hq)
      obtain ⟨ht, b, hb, hd⟩ := h p (List.mem_cons_self ..)
      obtain ⟨k, v⟩ := p
      refine ⟨(k, b, content v) :: ts, ?_, ?_, ?_⟩
      · simp only [MsgPack.encM, hb, h1, List.map_cons]
      · simp only [List.map_cons, entries, h2]
      · intro t htm
        rcases List.mem_cons.1 htm with rfl | htm
        · exact ⟨ht, hd⟩
        · exact h3 t htm
  obtain ⟨ts, h1, h2, h3⟩ := key d h
  obtain ⟨ts', hp, he⟩ := perm_map_inv _ (horder (ts.map fun t => (t.1, t.2.1)))
  refine ⟨_, by simp only [MsgPack.enc, h1, Option.map_some]; rfl, fun ds c hc => ?_⟩
  rw [he, List.flatMap_map]
  refine .dict (d' := ts'.map fun t => (t.1, t.2.2)) ?_ (by rw [h2]; exact hp.map _) ?_ hc
  · rw [entries_map, List.length_map]; exact mapHead_of _ (by simpa [short] using hl)
  · have h4 : ∀ t ∈ ts', short t.1.length = true ∧ ∀ ds c, Formats.MsgPack ds c → Formats.MsgPack (t.2.2 :: ds) (t.2.1 ++ c) :=
      fun t ht => h3 t (hp.mem_iff.1 ht)
    clear hp he
    induction ts' with
    | nil => exact .done
    | cons t ts' ih =>
      obtain ⟨g1, g2⟩ := h4 t (List.mem_cons_self ..)
      have := wr_str t.1 g1 _ _ (g2 _ _ (ih fun q hq => h4 q (List.mem_cons_of_mem _ hq)))
      simpa only [List.map_cons, List.flatMap_cons, List.append_assoc, List.cons_append, List.nil_append] using this

mutual
/-- What fits is written the way the format wants it. -/
theorem msgpack_write (horder : ∀ l, (order l).Perm l) (v : Val) (h : MsgPack.fits v = true) : MsgPackGood order v := by
  cases v with
  | nil => exact ⟨_, rfl, fun _ _ hc => .null hc⟩
  | bool b => cases b with
    | false => exact ⟨_, rfl, fun _ _ hc => .no hc⟩
    | true => exact ⟨_, rfl, fun _ _ hc => .yes hc⟩
  | arrNil => exact ⟨_, rfl, fun _ _ hc => .null hc⟩
  | strsNil => exact ⟨_, rfl, fun _ _ hc => .null hc⟩
  | mapNil => exact ⟨_, rfl, fun _ _ hc => .null hc⟩
  | other t => simp [MsgPack.fits] at h
  | int k v => exact msgpackGood_int order k v h
  | uint k n => exact msgpackGood_uint order k n h
  | f32 f =>
    obtain ⟨h1, h2⟩ := floatOf_bits32 f h
    refine ⟨_, rfl, fun ds c hc => ?_⟩
    have := Formats.MsgPack.single (s := be 4 (bitsOf 8 23 f)) (be_length ..) hc
    rwa [bigEndian_be _ _ h2, value_floatOf single rfl _ h2, show floatOf single.exp single.frac _ = _ from h1] at this
  | f64 f =>
    obtain ⟨h1, h2⟩ := floatOf_bits64 f h
    refine ⟨_, rfl, fun ds c hc => ?_⟩
    have := Formats.MsgPack.double (s := be 8 (bitsOf 11 52 f)) (be_length ..) hc
    rwa [bigEndian_be _ _ h2, value_floatOf double rfl _ h2, show floatOf double.exp double.frac _ = _ from h1] at this
  | str s => exact ⟨_, rfl, wr_str s h⟩
  | named s => exact ⟨_, rfl, wr_str s h⟩
  | bytes b => exact ⟨_, rfl, fun ds c hc => .bytes (binHead_of _ (by simpa [MsgPack.fits, short] using h)) hc⟩
  | strs l =>
    simp only [MsgPack.fits, Bool.and_eq_true, List.all_eq_true] at h
    exact msgpackGood_strs order l h.1 h.2
  | arr l =>
    simp only [MsgPack.fits, Bool.and_eq_true] at h
    exact msgpackGood_arr order l h.1 (msgpack_writeL horder l h.2)
  | map d =>
    simp only [MsgPack.fits, Bool.and_eq_true] at h
    exact msgpackGood_map order horder d h.1.1 (msgpack_writeM horder d h.2)
termination_by sizeOf v
theorem msgpack_writeL (horder : ∀ l, (order l).Perm l) (l : List Val) (h : MsgPack.fitsL l = true) : ∀ v ∈ l, MsgPackGood order v := by
  cases l with
  | nil => intro v hv; cases hv
  | cons v l =>
    simp only [MsgPack.fitsL, Bool.and_eq_true] at h
    intro w hw
    rcases List.mem_cons.1 hw with hv | hw
    · rw [hv]; exact msgpack_write horder v h.1
    · exact msgpack_writeL horder l h.2 w hw
termination_by sizeOf l
theorem msgpack_writeM (horder : ∀ l, (order l).Perm l) (d : List (Str × Val)) (h : MsgPack.fitsM d = true) :
    ∀ p ∈ d, short p.1.length = true ∧ MsgPackGood order p.2 := by
  match d, h with
  | [], _ => intro v hv; cases hv
  | (k, v) :: d, h =>
    simp only [MsgPack.fitsM, Bool.and_eq_true] at h
    intro w hw
    rcases List.mem_cons.1 hw with hv | hw
    · rw [hv]; exact ⟨h.1.1, msgpack_write horder v h.1.2⟩
    · exact msgpack_writeM horder d h.2 w hw
termination_by sizeOf d
end

end

end Wamp.Formats
