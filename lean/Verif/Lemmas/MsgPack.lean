import Verif.Spec.MsgPack
import Verif.Lemmas.Cbor
/-!
# MsgPack: reading what was written
-/
namespace Wamp.MsgPack
open Wamp Wamp.Cbor

theorem readNum_be (k n : Nat) (h : n < 256 ^ k) (rest : Str) : readNum k (be k n ++ rest) = some (n, rest) := by
  have hl := be_length k n
  have : split k (be k n ++ rest) = some (be k n, rest) := by
    have := split_append (be k n) rest
    rwa [hl] at this
  rw [readNum, this]
  simp only [ofBE_be k n h]

theorem toNat_ofNat {n : Nat} (h : n < 256) : (UInt8.ofNat n).toNat = n := UInt8.toNat_ofNat_of_lt' (by show _ < 256; omega)

/-- The header of a string is read back. -/
theorem strHead_read (n : Nat) (h : n < 2 ^ 32) : ∃ c t k len, strHead n = c :: t ∧ item c.toNat = .str k len ∧
    ∀ rest, readLen k len (t ++ rest) = some (n, rest) := by
  unfold strHead lenPrefix
  split
  · refine ⟨_, [], 0, n, rfl, ?_, fun rest => rfl⟩
    rw [toNat_ofNat (by omega), item.eq_def, if_neg (by omega), if_neg (by omega), if_neg (by omega), if_pos (by omega), Nat.add_sub_cancel_left]
  · simp only
    split
    · exact ⟨_, _, 1, 0, rfl, rfl, fun rest => readNum_be 1 n (by simpa using ‹_›) rest⟩
    split
    · exact ⟨_, _, 2, 0, rfl, rfl, fun rest => readNum_be 2 n (by simpa using ‹_›) rest⟩
    · exact ⟨_, _, 4, 0, rfl, rfl, fun rest => readNum_be 4 n (by simpa using h) rest⟩

/-- The header of a list is read back. -/
theorem arrHead_read (n : Nat) (h : n < 2 ^ 32) : ∃ c t k len, arrHead n = c :: t ∧ item c.toNat = .arr k len ∧
    ∀ rest, readLen k len (t ++ rest) = some (n, rest) := by
  unfold arrHead lenPrefix
  split
  · refine ⟨_, [], 0, n, rfl, ?_, fun rest => rfl⟩
    rw [toNat_ofNat (by omega), item.eq_def, if_neg (by omega), if_neg (by omega), if_pos (by omega), Nat.add_sub_cancel_left]
  · simp only
    split
    · exact ⟨_, _, 2, 0, rfl, rfl, fun rest => readNum_be 2 n (by simpa using ‹_›) rest⟩
    · exact ⟨_, _, 4, 0, rfl, rfl, fun rest => readNum_be 4 n (by simpa using h) rest⟩

/-- The header of a map is read back. -/
theorem mapHead_read (n : Nat) (h : n < 2 ^ 32) : ∃ c t k len, mapHead n = c :: t ∧ item c.toNat = .map k len ∧
    ∀ rest, readLen k len (t ++ rest) = some (n, rest) := by
  unfold mapHead lenPrefix
  split
  · refine ⟨_, [], 0, n, rfl, ?_, fun rest => rfl⟩
    rw [toNat_ofNat (by omega), item.eq_def, if_neg (by omega), if_pos (by omega), Nat.add_sub_cancel_left]
  · simp only
    split
    · exact ⟨_, _, 2, 0, rfl, rfl, fun rest => readNum_be 2 n (by simpa using ‹_›) rest⟩
    · exact ⟨_, _, 4, 0, rfl, rfl, fun rest => readNum_be 4 n (by simpa using h) rest⟩

/-- The header of a byte string is read back. -/
theorem binHead_read (n : Nat) (h : n < 2 ^ 32) : ∃ c t k, binHead n = c :: t ∧ item c.toNat = .bin k ∧
    ∀ rest, readNum k (t ++ rest) = some (n, rest) := by
  unfold binHead
  split
  · exact ⟨_, _, 1, rfl, rfl, fun rest => readNum_be 1 n (by simpa using ‹_›) rest⟩
  split
  · exact ⟨_, _, 2, rfl, rfl, fun rest => readNum_be 2 n (by simpa using ‹_›) rest⟩
  · exact ⟨_, _, 4, rfl, rfl, fun rest => readNum_be 4 n (by simpa using h) rest⟩

theorem readText_head (s : Str) (h : short s.length = true) (rest : Str) : readText (strHead s.length ++ s ++ rest) = some (s, rest) := by
  obtain ⟨c, t, k, len, h1, h2, h3⟩ := strHead_read s.length (by simpa [short] using h)
  rw [h1, List.append_assoc, List.cons_append, readText, h2]
  simp only [h3, split_append]

theorem dec_text (fuel : Nat) (s : Str) (h : short s.length = true) (rest : Str) :
    dec fuel (strHead s.length ++ s ++ rest) = some (.str s, rest) := by
  obtain ⟨c, t, k, len, h1, h2, h3⟩ := strHead_read s.length (by simpa [short] using h)
  rw [h1, List.append_assoc, List.cons_append, dec.eq_def]
  simp only [h2, h3, split_append]

/-- A code with a number. -/
theorem dec_num (fuel : Nat) (c : UInt8) (k n : Nat) (f : Nat → Val) (hc : item c.toNat = .num k f) (h : n < 256 ^ k) (rest : Str) :
    dec fuel (c :: be k n ++ rest) = some (f n, rest) := by
  rw [List.cons_append, dec.eq_def]
  simp only [hc, readNum_be k n h]

theorem dec_val (fuel : Nat) (c : UInt8) (v : Val) (hc : item c.toNat = .val v) (rest : Str) : dec fuel ([c] ++ rest) = some (v, rest) := by
  rw [List.cons_append, dec.eq_def]
  simp only [hc, List.nil_append]

/-- Two's complement. -/
theorem beInt_eq (k : Nat) (hk : 0 < k) (v : Int) (h1 : -2 ^ (8 * k - 1) ≤ v) (h2 : v < 2 ^ (8 * k - 1)) :
    ∃ n, beInt k v = be k n ∧ n < 256 ^ k ∧ signed k n = v := by
  have hp : (256 : Nat) ^ k = 2 * 2 ^ (8 * k - 1) := by
    rw [show (256 : Nat) = 2 ^ 8 by decide, ← Nat.pow_mul, ← Nat.pow_succ']
    congr 1; omega
  have hq : (2 : Nat) ^ (8 * k) = 2 * 2 ^ (8 * k - 1) := by
    rw [← Nat.pow_succ']
    congr 1; omega
  have hp' : (256 : Int) ^ k = 2 * 2 ^ (8 * k - 1) := by
    have := congrArg (Nat.cast : Nat → Int) hp
    rwa [Int.natCast_pow, Int.natCast_mul, Int.natCast_pow] at this
  have hq' : (2 : Int) ^ (8 * k) = 2 * 2 ^ (8 * k - 1) := by
    have := congrArg (Nat.cast : Nat → Int) hq
    rwa [Int.natCast_pow, Int.natCast_mul, Int.natCast_pow] at this
  have hc : ((2 ^ (8 * k - 1) : Nat) : Int) = 2 ^ (8 * k - 1) := Int.natCast_pow 2 _
  refine ⟨_, rfl, ?_, ?_⟩
  · rw [hp]
    split <;> omega
  · unfold signed
    rw [hq']
    split
    · rw [if_pos (by omega)]; omega
    · rw [if_neg (by omega)]; omega

theorem dec_int (fuel : Nat) (c : UInt8) (k : Nat) (hk : 0 < k) (f : Int → Val) (hc : item c.toNat = .num k fun n => f (signed k n)) (v : Int)
    (h1 : -2 ^ (8 * k - 1) ≤ v) (h2 : v < 2 ^ (8 * k - 1)) (rest : Str) : dec fuel (c :: beInt k v ++ rest) = some (f v, rest) := by
  obtain ⟨n, e1, e2, e3⟩ := beInt_eq k hk v h1 h2
  rw [e1, dec_num fuel c k n _ hc e2, e3]

theorem dec_compactUint (fuel n : Nat) (h : n < 2 ^ 64) (rest : Str) :
    dec fuel (compactUint n ++ rest) = some (msgpackCompactUint n, rest) := by
  unfold compactUint msgpackCompactUint
  split
  · exact dec_val fuel _ _ (by rw [toNat_ofNat (by omega), item.eq_def, if_pos (by omega)]) rest
  split
  · exact dec_num fuel 0xcc 1 n _ rfl (by omega) rest
  split
  · exact dec_num fuel 0xcd 2 n _ rfl (by omega) rest
  split
  · exact dec_num fuel 0xce 4 n _ rfl (by omega) rest
  · exact dec_num fuel 0xcf 8 n _ rfl (by omega) rest

theorem dec_compactInt (fuel : Nat) (v : Int) (h1 : -2 ^ 63 ≤ v) (h2 : v < 2 ^ 63) (rest : Str) :
    dec fuel (compactInt v ++ rest) = some (msgpackCompactInt v, rest) := by
  unfold compactInt msgpackCompactInt
  split
  · exact dec_compactUint fuel _ (by omega) rest
  split
  · rw [if_pos (by omega)]
    refine dec_val fuel _ _ ?_ rest
    rw [toNat_ofNat (by omega), item.eq_def, if_neg (by omega), if_neg (by omega), if_neg (by omega), if_neg (by omega), if_pos (by omega)]
    congr 2
    omega
  split
  · exact dec_int fuel 0xd0 1 (by decide) (.int .i8) rfl v (by omega) (by omega) rest
  split
  · exact dec_int fuel 0xd1 2 (by decide) (.int .i16) rfl v (by omega) (by omega) rest
  split
  · exact dec_int fuel 0xd2 4 (by decide) (.int .i32) rfl v (by omega) (by omega) rest
  · exact dec_int fuel 0xd3 8 (by decide) (.int .i64) rfl v (by omega) (by omega) rest

/-! ### Floats -/

theorem floatOf_bits32 (f : GoFloat) (h : isFloat 8 23 f = true) : floatOf 8 23 (bitsOf 8 23 f) = f ∧ bitsOf 8 23 f < 256 ^ 4 := by
  cases f with
  | fin neg m e => exact floatOf_bits 8 23 (by decide) neg m e h
  | inf neg => cases neg <;> decide
  | nan => decide

theorem floatOf_bits64 (f : GoFloat) (h : isFloat 11 52 f = true) : floatOf 11 52 (bitsOf 11 52 f) = f ∧ bitsOf 11 52 f < 256 ^ 8 := by
  cases f with
  | fin neg m e => exact floatOf_bits 11 52 (by decide) neg m e h
  | inf neg => cases neg <;> decide
  | nan => decide

/-! ### The round trip -/

section
variable (order : List (Str × Str) → List (Str × Str))

/-- The value is written, and reading it gives its wire form and leaves what follows. -/
def Good (v : Val) : Prop :=
  ∃ b, enc order v = some b ∧ ∀ fuel, b.length ≤ fuel → ∀ rest, dec fuel (b ++ rest) = some (msgpackWire v, rest)

theorem wireM_map (d : Dict) : wireM msgpackLeaf d = d.map fun p => (p.1, msgpackWire p.2) := by
  induction d with
  | nil => rfl
  | cons p d ih => obtain ⟨k, v⟩ := p; simp [wireM, ih, msgpackWire]

theorem wireL_map (l : List Val) : wireL msgpackLeaf l = l.map msgpackWire := by
  induction l with
  | nil => rfl
  | cons p d ih => simp [wireL, ih, msgpackWire]

theorem length_le_flatMap {α : Type} (g : α → Str) (l : List α) (x : α) (hx : x ∈ l) : (g x).length ≤ (l.flatMap g).length := by
  induction l with
  | nil => cases hx
  | cons y l ih =>
    rw [List.flatMap_cons, List.length_append]
    rcases List.mem_cons.1 hx with rfl | hx
    · omega
    · have := ih hx; omega

theorem good_map (horder : ∀ l, (order l).Perm l) (d : Dict) (hl : short d.length = true) (hs : sortedKeys d = true)
    (h : ∀ p ∈ d, short p.1.length = true ∧ Good order p.2) : Good order (.map d) := by
  have key : ∀ d : Dict, (∀ p ∈ d, short p.1.length = true ∧ Good order p.2) →
      ∃ ts : List (Str × Str × Val), encM order d = some (ts.map fun t => (t.1, t.2.1)) ∧
        d.map (fun p => (p.1, msgpackWire p.2)) = ts.map (fun t => (t.1, t.2.2)) ∧
        ∀ t ∈ ts, short t.1.length = true ∧
          ∀ fuel, t.2.1.length ≤ fuel → ∀ rest, dec fuel (t.2.1 ++ rest) = some (t.2.2, rest) := by
    intro d
    induction d with
    | nil => intro _; exact ⟨[], rfl, rfl, by simp⟩
    | cons p d ih =>
      intro h
      obtain ⟨ts, h1, h2, h3⟩ := ih fun q hq => h q (List.mem_cons_of_mem _ hq)
      obtain ⟨ht, b, hb, hd⟩ := h p (List.mem_cons_self ..)
      obtain ⟨k, v⟩ := p
      refine ⟨(k, b, msgpackWire v) :: ts, ?_, ?_, ?_⟩
      · simp only [encM, hb, h1, List.map_cons]
      · simp only [List.map_cons, h2]
      · intro t htm
        rcases List.mem_cons.1 htm with rfl | htm
        · exact ⟨ht, hd⟩
        · exact h3 t htm
  obtain ⟨ts, h1, h2, h3⟩ := key d h
  obtain ⟨ts', hp, he⟩ := perm_map_inv _ (horder (ts.map fun t => (t.1, t.2.1)))
  refine ⟨_, by simp only [enc, h1, Option.map_some]; rfl, fun fuel hfuel rest => ?_⟩
  have hlen : ts'.length = d.length := by
    rw [hp.length_eq]
    have := congrArg List.length h2
    simpa using this.symm
  obtain ⟨c, t, k, len, e1, e2, e3⟩ := mapHead_read d.length (by simpa [short] using hl)
  rw [e1, he, List.flatMap_map] at hfuel
  rw [e1, he, List.flatMap_map]
  rw [List.cons_append, List.length_cons, List.length_append] at hfuel
  obtain ⟨fuel, rfl⟩ : ∃ n, fuel = n + 1 := ⟨fuel - 1, by omega⟩
  rw [List.cons_append, List.cons_append, List.append_assoc, dec.eq_def]
  simp only [e2, e3]
  rw [← hlen, seqOf_map (readPair (dec fuel)) (fun t : Str × Str × Val => strHead t.1.length ++ t.1 ++ t.2.1) (fun t => (t.1, t.2.2))]
  · simp only [msgpackWire, wire, wireM_map]
    rw [foldl_perm (d := d.map fun p => (p.1, msgpackWire p.2)) (by rw [sortedKeys_map]; exact hs)]
    · rfl
    · rw [h2]; exact hp.map _
  · intro u hu rest
    obtain ⟨g1, g2⟩ := h3 u (hp.mem_iff.1 hu)
    rw [readPair, List.append_assoc, readText_head _ g1]
    have := length_le_flatMap (fun t : Str × Str × Val => strHead t.1.length ++ t.1 ++ t.2.1) ts' u hu
    simp only [List.length_append] at this
    dsimp only at hfuel
    simp only [g2 fuel (by omega)]

theorem good_arr (l : List Val) (hl : short l.length = true) (h : ∀ v ∈ l, Good order v) : Good order (.arr l) := by
  have key : ∀ l : List Val, (∀ v ∈ l, Good order v) →
      ∃ ts : List (Str × Val), encL order l = some (ts.flatMap Prod.fst) ∧ l.map msgpackWire = ts.map Prod.snd ∧
        ∀ t ∈ ts, ∀ fuel, t.1.length ≤ fuel → ∀ rest, dec fuel (t.1 ++ rest) = some (t.2, rest) := by
    intro l
    induction l with
    | nil => intro _; exact ⟨[], rfl, rfl, by simp⟩
    | cons v l ih =>
      intro h
      obtain ⟨ts, h1, h2, h3⟩ := ih fun q hq => h q (List.mem_cons_of_mem _ hq)
      obtain ⟨b, hb, hd⟩ := h v (List.mem_cons_self ..)
      refine ⟨(b, msgpackWire v) :: ts, ?_, ?_, ?_⟩
      · simp only [encL, hb, h1, List.flatMap_cons]
      · simp only [List.map_cons, h2]
      · intro t htm
        rcases List.mem_cons.1 htm with rfl | htm
        · exact hd
        · exact h3 t htm
  obtain ⟨ts, h1, h2, h3⟩ := key l h
  have hlen : ts.length = l.length := by
    have := congrArg List.length h2
    simpa using this.symm
  refine ⟨_, by simp only [enc, h1, Option.map_some]; rfl, fun fuel hfuel rest => ?_⟩
  obtain ⟨c, t, k, len, e1, e2, e3⟩ := arrHead_read l.length (by simpa [short] using hl)
  rw [e1] at hfuel ⊢
  rw [List.cons_append, List.length_cons, List.length_append] at hfuel
  obtain ⟨fuel, rfl⟩ : ∃ n, fuel = n + 1 := ⟨fuel - 1, by omega⟩
  rw [List.cons_append, List.cons_append, List.append_assoc, dec.eq_def]
  simp only [e2, e3]
  rw [← hlen, seqOf_map (dec fuel) Prod.fst Prod.snd ts]
  · simp only [msgpackWire, wire, wireL_map]
    rw [show List.map (wire msgpackLeaf) l = _ from h2]
  · intro u hu rest
    have := length_le_flatMap Prod.fst ts u hu
    exact h3 u hu fuel (by omega) rest

theorem good_strs (l : List Str) (hl : short l.length = true) (h : ∀ s ∈ l, short s.length = true) : Good order (.strs l) := by
  refine ⟨_, rfl, fun fuel hfuel rest => ?_⟩
  obtain ⟨c, t, k, len, e1, e2, e3⟩ := arrHead_read l.length (by simpa [short] using hl)
  rw [e1] at hfuel ⊢
  rw [List.cons_append, List.length_cons, List.length_append] at hfuel
  obtain ⟨fuel, rfl⟩ : ∃ n, fuel = n + 1 := ⟨fuel - 1, by omega⟩
  rw [List.cons_append, List.cons_append, List.append_assoc, dec.eq_def]
  simp only [e2, e3]
  rw [seqOf_map (dec fuel) (fun s => strHead s.length ++ s) Val.str l]
  · simp [msgpackWire, wire]
  · intro s hs rest
    exact dec_text fuel s (h s hs) rest

theorem good_int (k : IK) (v : Int) (h : inRange k v = true) : Good order (.int k v) := by
  cases k <;> simp only [inRange, decide_eq_true_eq] at h <;> refine ⟨_, rfl, fun fuel _ rest => ?_⟩
  · exact dec_compactInt fuel v h.1 h.2 rest
  · exact dec_int fuel 0xd0 1 (by decide) (.int .i8) rfl v h.1 h.2 rest
  · exact dec_int fuel 0xd1 2 (by decide) (.int .i16) rfl v h.1 h.2 rest
  · exact dec_int fuel 0xd2 4 (by decide) (.int .i32) rfl v h.1 h.2 rest
  · exact dec_int fuel 0xd3 8 (by decide) (.int .i64) rfl v h.1 h.2 rest

theorem good_uint (k : UK) (n : Nat) (h : inURange k n = true) : Good order (.uint k n) := by
  cases k <;> simp only [inURange, decide_eq_true_eq] at h <;> refine ⟨_, rfl, fun fuel _ rest => ?_⟩
  · exact dec_compactUint fuel n h rest
  · exact dec_num fuel 0xcc 1 n (.uint .u8) rfl h rest
  · exact dec_num fuel 0xcd 2 n (.uint .u16) rfl h rest
  · exact dec_num fuel 0xce 4 n (.uint .u32) rfl h rest
  · exact dec_num fuel 0xcf 8 n (.uint .u64) rfl h rest

mutual
/-- What fits is written and read back. -/
theorem good (horder : ∀ l, (order l).Perm l) (v : Val) (h : fits v = true) : Good order v := by
  cases v with
  | nil => exact ⟨_, rfl, fun fuel _ rest => dec_val fuel 0xc0 .nil rfl rest⟩
  | bool b =>
    cases b
    · exact ⟨_, rfl, fun fuel _ rest => dec_val fuel 0xc2 (.bool false) rfl rest⟩
    · exact ⟨_, rfl, fun fuel _ rest => dec_val fuel 0xc3 (.bool true) rfl rest⟩
  | arrNil => exact ⟨_, rfl, fun fuel _ rest => dec_val fuel 0xc0 .nil rfl rest⟩
  | strsNil => exact ⟨_, rfl, fun fuel _ rest => dec_val fuel 0xc0 .nil rfl rest⟩
  | mapNil => exact ⟨_, rfl, fun fuel _ rest => dec_val fuel 0xc0 .nil rfl rest⟩
  | other t => simp [fits] at h
  | int k v => exact good_int order k v h
  | uint k n => exact good_uint order k n h
  | f32 f =>
    obtain ⟨h1, h2⟩ := floatOf_bits32 f h
    refine ⟨_, rfl, fun fuel _ rest => ?_⟩
    rw [dec_num fuel 0xca 4 _ (fun n => .f32 (floatOf 8 23 n)) rfl h2, h1]
    rfl
  | f64 f =>
    obtain ⟨h1, h2⟩ := floatOf_bits64 f h
    refine ⟨_, rfl, fun fuel _ rest => ?_⟩
    rw [dec_num fuel 0xcb 8 _ (fun n => .f64 (floatOf 11 52 n)) rfl h2, h1]
    rfl
  | str s => exact ⟨_, rfl, fun fuel _ rest => dec_text fuel s h rest⟩
  | named s => exact ⟨_, rfl, fun fuel _ rest => dec_text fuel s h rest⟩
  | bytes b =>
    refine ⟨_, rfl, fun fuel _ rest => ?_⟩
    obtain ⟨c, t, k, e1, e2, e3⟩ := binHead_read b.length (by simpa [fits, short] using h)
    rw [e1, List.append_assoc, List.cons_append, dec.eq_def]
    simp only [e2, e3, split_append]
    rfl
  | strs l =>
    simp only [fits, Bool.and_eq_true, List.all_eq_true] at h
    exact good_strs order l h.1 h.2
  | arr l =>
    simp only [fits, Bool.and_eq_true] at h
    exact good_arr order l h.1 (goodL horder l h.2)
  | map d =>
    simp only [fits, Bool.and_eq_true] at h
    exact good_map order horder d h.1.1 h.1.2 (goodM horder d h.2)
termination_by sizeOf v
theorem goodL (horder : ∀ l, (order l).Perm l) (l : List Val) (h : fitsL l = true) : ∀ v ∈ l, Good order v := by
  cases l with
  | nil => intro v hv; cases hv
  | cons v l =>
    simp only [fitsL, Bool.and_eq_true] at h
    intro w hw
    rcases List.mem_cons.1 hw with hv | hw
    · rw [hv]; exact good horder v h.1
    · exact goodL horder l h.2 w hw
termination_by sizeOf l
theorem goodM (horder : ∀ l, (order l).Perm l) (d : List (Str × Val)) (h : fitsM d = true) :
    ∀ p ∈ d, short p.1.length = true ∧ Good order p.2 := by
  match d, h with
  | [], _ => intro v hv; cases hv
  | (k, v) :: d, h =>
    simp only [fitsM, Bool.and_eq_true] at h
    intro w hw
    rcases List.mem_cons.1 hw with hv | hw
    · rw [hv]; exact ⟨h.1.1, good horder v h.1.2⟩
    · exact goodM horder d h.2 w hw
termination_by sizeOf d
end

end

end Wamp.MsgPack
