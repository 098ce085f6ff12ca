import Verif.Lemmas.Formats
/-!
# CBOR: the serializer against RFC 8949
-/
namespace Wamp.Formats
open Wamp Wamp.Cbor

theorem readHead_large (major k : Nat) (hm : major < 8) (hk : k ≤ 3) (s : Str) (hs : s.length = 2 ^ k) (rest : Str) :
    readHead (UInt8.ofNat (32 * major + 24 + k) :: (s ++ rest)) = some (major, 24 + k, bigEndian s, rest) := by
  have hb : (UInt8.ofNat (32 * major + 24 + k)).toNat = 32 * major + 24 + k := UInt8.toNat_ofNat_of_lt' (by show _ < 256; omega)
  simp only [readHead, hb]
  rw [show (32 * major + 24 + k) / 32 = major by omega, show (32 * major + 24 + k) % 32 = 24 + k by omega, if_neg (by omega),
    if_pos (by omega), show 24 + k - 24 = k by omega, ← hs, if_neg (by simp), List.take_left', List.drop_left', bigEndian_ofBE] <;> rfl

theorem readHead_of (major : Nat) (hm : major < 8) {n : Nat} {h : Str} (hh : Head major n h) (rest : Str) :
    ∃ info, readHead (h ++ rest) = some (major, info, n, rest) := by
  cases hh with
  | small _ hn => exact ⟨n, by rw [Nat.mul_comm]; exact readHead_short major n hm hn rest⟩
  | large k s hk hs => exact ⟨24 + k, readHead_large major k hm hk s hs rest⟩

theorem cborVals_map (l : List Data) : cborVals l = l.map cborVal := by
  induction l with
  | nil => rfl
  | cons d l ih => rw [cborVals, ih, List.map_cons]

theorem cborEntries_map (d : List (Str × Data)) : cborEntries d = d.map fun p => (p.1, cborVal p.2) := by
  induction d with
  | nil => rfl
  | cons p d ih => obtain ⟨k, v⟩ := p; rw [cborEntries, ih, List.map_cons]

theorem withinL_iff (count levels : Nat) (l : List Data) : WithinL count levels l ↔ ∀ d ∈ l, Within count levels d := by
  induction l with
  | nil => simp [WithinL]
  | cons d l ih => simp [WithinL, ih]

theorem withinD_iff (count levels : Nat) (d : List (Str × Data)) : WithinD count levels d ↔ ∀ p ∈ d, Within count levels p.2 := by
  induction d with
  | nil => simp [WithinD]
  | cons p d ih => obtain ⟨k, v⟩ := p; simp [WithinD, ih]

/-- A text item is a key. -/
theorem readText_of_dec {levels : Nat} {s k rest : Str} (h : dec levels s = some (.str k, rest)) : readText s = some (k, rest) := by
  rw [dec.eq_def] at h
  rw [readText]
  split at h
  · rename_i hr
    rw [hr]
    split at h
    · split at h <;> cases h
    · split at h
      · rename_i h7
        simp only [h7, if_true]
        split at h
        · rename_i hc
          injection h with h; injection h with h1 h2
          injection h1 with h1
          subst h1 h2
          exact hc
        · cases h
      · repeat (first | cases h | split at h)
  · rename_i major info n s' hr
    rw [hr]
    split at h
    case h_4 =>
      split at h
      · simp only at h ⊢
        split at h
        · rename_i hv
          injection h with h; injection h with h1 h2
          injection h1 with h1
          subst h1 h2
          simp [*]
        · cases h
      · cases h
    all_goals repeat (first | cases h | split at h)

/-- Keys and values one after the other are entries. -/
theorem seqOf_pairs (levels : Nat) (ps : List (Str × Val)) (s rest : Str)
    (h : seqOf (dec levels) (ps.flatMap fun p => [.str p.1, p.2]).length s = some (ps.flatMap fun p => [.str p.1, p.2], rest)) :
    seqOf (readPair (dec levels)) ps.length s = some (ps, rest) := by
  induction ps generalizing s with
  | nil =>
    simp [seqOf] at h ⊢
    exact h
  | cons p ps ih =>
    obtain ⟨k, v⟩ := p
    simp only [List.flatMap_cons, List.cons_append, List.nil_append, List.length_cons, seqOf] at h
    cases h1 : dec levels s with
    | none => simp [h1] at h
    | some r =>
      obtain ⟨w, s1⟩ := r
      simp only [h1] at h
      cases h2 : dec levels s1 with
      | none => simp [h2] at h
      | some r =>
        obtain ⟨w2, s2⟩ := r
        simp only [h2] at h
        cases h3 : seqOf (dec levels) (ps.flatMap fun p => [.str p.1, p.2]).length s2 with
        | none => rw [h3] at h; cases h
        | some r =>
          obtain ⟨l, s3⟩ := r
          simp only [h3, Option.some.injEq, Prod.mk.injEq, List.cons.injEq] at h
          obtain ⟨⟨rfl, rfl, rfl⟩, rfl⟩ := h
          rw [List.length_cons, seqOf, readPair, readText_of_dec h1]
          simp only [h2, ih s2 h3]

/-- Nothing begins with the "break" code. -/
theorem dec_break (levels : Nat) (s : Str) : dec levels (0xff :: s) = none := by
  rw [dec.eq_def]; rfl

theorem readPair_break (f : Str → Option (Val × Str)) (s : Str) : readPair f (0xff :: s) = none := rfl

/-- Items one after the other and the "break" code behind them. -/
theorem untilBreak_seqOf {α : Type} {f : Str → Option (α × Str)} (hf : ∀ s, f (0xff :: s) = none) (n limit : Nat) (s rest : Str) (l : List α) (hn : n ≤ limit)
    (h : seqOf f n s = some (l, 0xff :: rest)) : untilBreak f limit s = some (l, rest) := by
  induction n generalizing s l limit with
  | zero =>
    simp only [seqOf, Option.some.injEq, Prod.mk.injEq] at h
    obtain ⟨rfl, rfl⟩ := h
    cases limit <;> rfl
  | succ n ih =>
    obtain ⟨limit, rfl⟩ : ∃ k, limit = k + 1 := ⟨limit - 1, by omega⟩
    rw [seqOf] at h
    cases h1 : f s with
    | none => rw [h1] at h; cases h
    | some p =>
      obtain ⟨v, s1⟩ := p
      simp only [h1] at h
      cases h2 : seqOf f n s1 with
      | none => rw [h2] at h; cases h
      | some q =>
        obtain ⟨l', s2⟩ := q
        simp only [h2, Option.some.injEq, Prod.mk.injEq] at h
        obtain ⟨rfl, rfl⟩ := h
        have : s.head? ≠ some 0xff := by
          cases s with
          | nil => simp
          | cons c s =>
            intro hc
            simp only [List.head?_cons, Option.some.injEq] at hc
            rw [hc, hf] at h1
            cases h1
        rw [untilBreak, if_neg this, h1]
        simp only [ih limit s1 l' (by omega) h2]

theorem chunk_of (major : Nat) (hm : major = 2 ∨ major = 3) {t h : Str} (hh : Head major t.length h) (hu : major = 3 → Utf8 t) (rest : Str) :
    chunk major (h ++ (t ++ rest)) = some (t, rest) := by
  obtain ⟨info, hi⟩ := readHead_of major (by omega) hh (t ++ rest)
  rw [chunk, hi]
  simp only [if_true, split_append]
  rw [if_neg]
  rintro ⟨h3, hv⟩
  rw [(valid_iff t).2 (hu h3)] at hv
  cases hv

theorem head_length {major n : Nat} {h : Str} (hh : Head major n h) : 1 ≤ h.length := by
  cases hh <;> simp

theorem chunks_of (major : Nat) (hm : major = 2 ∨ major = 3) (cs : List (Str × Str)) (h : ∀ c ∈ cs, Head major c.2.length c.1 ∧ (major = 3 → Utf8 c.2)) (rest : Str) :
    chunks major ((cs.flatMap fun c => c.1 ++ c.2) ++ 0xff :: rest) = some (cs.flatMap fun c => c.2, rest) := by
  have hl : cs.length ≤ ((cs.flatMap fun c => c.1 ++ c.2) ++ 0xff :: rest).length := by
    induction cs with
    | nil => simp
    | cons c cs ih =>
      have h1 := ih fun c hc => h c (List.mem_cons_of_mem _ hc)
      have h2 := head_length (h c (List.mem_cons_self ..)).1
      simp only [List.length_cons, List.flatMap_cons, List.length_append] at h1 ⊢
      omega
  have hs : seqOf (chunk major) cs.length ((cs.flatMap fun c => c.1 ++ c.2) ++ 0xff :: rest) = some (cs.map fun c => c.2, 0xff :: rest) := by
    clear hl
    induction cs with
    | nil => rfl
    | cons c cs ih =>
      obtain ⟨h1, h2⟩ := h c (List.mem_cons_self ..)
      rw [List.length_cons, List.flatMap_cons, List.append_assoc, List.append_assoc, seqOf, chunk_of major hm h1 h2]
      simp only [ih fun c hc => h c (List.mem_cons_of_mem _ hc), List.map_cons]
  rw [chunks, untilBreak_seqOf (by intro s; rfl) _ _ _ _ _ hl hs]
  simp only [List.flatMap_def]

theorem flat_map (d : List (Str × Data)) : (d.flatMap fun p => [Data.text p.1, p.2]).map cborVal =
    (d.map fun p => (p.1, cborVal p.2)).flatMap fun p => [.str p.1, p.2] := by
  induction d with
  | nil => rfl
  | cons p d ih =>
    rw [List.flatMap_cons, List.map_append, ih]
    rfl

/-- The entries of a map in any order. -/
theorem entries_read (levels : Nat) (d d' : List (Str × Data)) (hp : d'.Perm d) (hin : ∀ p ∈ d, Within 131072 levels p.2) (s rest : Str)
    (h : (∀ x ∈ d'.flatMap fun p => [Data.text p.1, p.2], Within 131072 levels x) →
      seqOf (dec levels) (d'.flatMap fun p => [Data.text p.1, p.2]).length s = some ((d'.flatMap fun p => [Data.text p.1, p.2]).map cborVal, rest)) :
    seqOf (readPair (dec levels)) d.length s = some (d'.map fun p => (p.1, cborVal p.2), rest) := by
  have h1 := h (by
    intro x hx
    rw [List.mem_flatMap] at hx
    obtain ⟨p, hp', hx⟩ := hx
    simp only [List.mem_cons, List.not_mem_nil, or_false] at hx
    rcases hx with rfl | rfl
    · trivial
    · exact hin p (hp.mem_iff.1 hp'))
  have e1 := flat_map d'
  have e2 : (d'.flatMap fun p => [Data.text p.1, p.2]).length =
      ((d'.map fun p => (p.1, cborVal p.2)).flatMap fun p => [Val.str p.1, p.2]).length := by rw [← e1, List.length_map]
  rw [e1, e2] at h1
  have h2 := seqOf_pairs levels _ _ _ h1
  rwa [List.length_map, hp.length_eq] at h2

theorem sorted_map (d : List (Str × Data)) (hord : Ordered d) : sortedKeys (d.map fun p => (p.1, cborVal p.2)) = true := by
  induction d with
  | nil => rfl
  | cons p d ih =>
    cases hord with
    | cons h1 h2 =>
      simp only [List.map_cons, sortedKeys, Bool.and_eq_true, List.all_eq_true, List.mem_map]
      refine ⟨?_, ih h2⟩
      rintro q ⟨r, hr, rfl⟩
      exact h1 r hr

theorem within_int {count levels : Nat} {v : Int} (h : Within count levels (.int v)) : -2 ^ 63 ≤ v ∧ v < 2 ^ 64 := h

/-- The reader understands everything RFC 8949 allows (within its limits). -/
theorem cbor_read {ds : List Data} {b : Str} (h : Formats.Cbor ds b) : ∀ (levels : Nat) (rest : Str),
    (∀ d ∈ ds, Within 131072 levels d) → seqOf (dec levels) ds.length (b ++ rest) = some (ds.map cborVal, rest) := by
  -- one item, then the others
  have cons : ∀ {d : Data} {ds : List Data} {a b : Str} {levels : Nat} {rest : Str}, dec levels (a ++ (b ++ rest)) = some (cborVal d, b ++ rest) →
      seqOf (dec levels) ds.length (b ++ rest) = some (ds.map cborVal, rest) →
      seqOf (dec levels) (d :: ds).length (a ++ b ++ rest) = some ((d :: ds).map cborVal, rest) := by
    intro d ds a b levels rest h1 h2
    rw [List.length_cons, seqOf, List.append_assoc, h1]
    simp only [h2, List.map_cons]
  induction h with
  | done => intro levels rest _; rfl
  | @unsigned n h ds b hh _ ih =>
    intro levels rest hw
    refine cons ?_ (ih levels rest fun d hd => hw d (List.mem_cons_of_mem _ hd))
    obtain ⟨info, hi⟩ := readHead_of 0 (by decide) hh (b ++ rest)
    rw [dec.eq_def, hi]
    simp [cborVal]
  | @negative n h ds b hh _ ih =>
    intro levels rest hw
    refine cons ?_ (ih levels rest fun d hd => hw d (List.mem_cons_of_mem _ hd))
    obtain ⟨info, hi⟩ := readHead_of 1 (by decide) hh (b ++ rest)
    have := within_int (hw _ (List.mem_cons_self ..))
    rw [dec.eq_def, hi]
    simp only [cborVal]
    rw [if_pos (by omega), if_neg (by omega)]
  | @bytes s h ds b hh _ ih =>
    intro levels rest hw
    refine cons ?_ (ih levels rest fun d hd => hw d (List.mem_cons_of_mem _ hd))
    obtain ⟨info, hi⟩ := readHead_of 2 (by decide) hh (s ++ (b ++ rest))
    rw [List.append_assoc, dec.eq_def, hi]
    simp only [split_append, cborVal]
  | @text s h ds b hh hu _ ih =>
    intro levels rest hw
    refine cons ?_ (ih levels rest fun d hd => hw d (List.mem_cons_of_mem _ hd))
    obtain ⟨info, hi⟩ := readHead_of 3 (by decide) hh (s ++ (b ++ rest))
    rw [List.append_assoc, dec.eq_def, hi]
    simp only [split_append, cborVal, (valid_iff s).2 hu, if_true]
  | @list l h a ds b hh _ _ ihl ih =>
    intro levels rest hw
    refine cons ?_ (ih levels rest fun d hd => hw d (List.mem_cons_of_mem _ hd))
    obtain ⟨hlv, hlen, hin⟩ := hw _ (List.mem_cons_self ..)
    obtain ⟨levels, rfl⟩ : ∃ k, levels = k + 1 := ⟨levels - 1, by omega⟩
    obtain ⟨info, hi⟩ := readHead_of 4 (by decide) hh (a ++ (b ++ rest))
    rw [List.append_assoc, dec.eq_def, hi]
    simp only
    rw [if_neg (by simp [maxElements]; omega), ihl levels (b ++ rest) ((withinL_iff ..).1 hin)]
    simp only [cborVal, cborVals_map]
  | @dict d d' h a ds b hh hp _ _ ihl ih =>
    intro levels rest hw
    refine cons ?_ (ih levels rest fun d hd => hw d (List.mem_cons_of_mem _ hd))
    obtain ⟨hlv, hlen, hord, hin⟩ := hw _ (List.mem_cons_self ..)
    obtain ⟨levels, rfl⟩ : ∃ k, levels = k + 1 := ⟨levels - 1, by omega⟩
    obtain ⟨info, hi⟩ := readHead_of 5 (by decide) hh (a ++ (b ++ rest))
    rw [withinD_iff] at hin
    have h2 := entries_read levels d d' hp hin _ _ (ihl levels (b ++ rest))
    rw [List.append_assoc, dec.eq_def, hi]
    simp only
    rw [if_neg (by simp [maxElements]; omega), h2]
    simp only [cborVal, cborEntries_map]
    rw [foldl_perm (d := d.map fun p => (p.1, cborVal p.2)) (sorted_map d hord) (hp.map _)]
  | @byteChunks cs ds b hcs _ ih =>
    intro levels rest hw
    have := @cons (.bytes (cs.flatMap fun c => c.2)) ds (0x5f :: ((cs.flatMap fun c => c.1 ++ c.2) ++ [0xff])) b levels rest ?_
      (ih levels rest fun d hd => hw d (List.mem_cons_of_mem _ hd))
    · simpa using this
    · rw [dec.eq_def, show readHead (0x5f :: _ ++ _) = none from rfl, List.cons_append, List.append_assoc]
      simp only [List.head?_cons, if_true, List.tail_cons, cborVal]
      rw [show [0xff] ++ (b ++ rest) = 0xff :: (b ++ rest) from rfl, chunks_of 2 (.inl rfl) cs fun c hc => ⟨hcs c hc, by omega⟩]
  | @textChunks cs ds b hcs _ ih =>
    intro levels rest hw
    have := @cons (.text (cs.flatMap fun c => c.2)) ds (0x7f :: ((cs.flatMap fun c => c.1 ++ c.2) ++ [0xff])) b levels rest ?_
      (ih levels rest fun d hd => hw d (List.mem_cons_of_mem _ hd))
    · simpa using this
    · rw [dec.eq_def, show readHead (0x7f :: _ ++ _) = none from rfl, List.cons_append, List.append_assoc]
      simp only [List.head?_cons, List.tail_cons, cborVal]
      rw [if_neg (by decide), if_pos trivial, show [0xff] ++ (b ++ rest) = 0xff :: (b ++ rest) from rfl, chunks_of 3 (.inr rfl) cs fun c hc => ⟨(hcs c hc).1, fun _ => (hcs c hc).2⟩]
  | @openList l a ds b _ _ ihl ih =>
    intro levels rest hw
    have := @cons (.list l) ds (0x9f :: (a ++ [0xff])) b levels rest ?_ (ih levels rest fun d hd => hw d (List.mem_cons_of_mem _ hd))
    · simpa using this
    · obtain ⟨hlv, hlen, hin⟩ := hw _ (List.mem_cons_self ..)
      obtain ⟨levels, rfl⟩ : ∃ k, levels = k + 1 := ⟨levels - 1, by omega⟩
      rw [dec.eq_def, show readHead (0x9f :: _ ++ _) = none from rfl, List.cons_append, List.append_assoc]
      simp only [List.head?_cons, List.tail_cons, cborVal]
      rw [if_neg (by decide), if_neg (by decide), if_pos trivial, show [0xff] ++ (b ++ rest) = 0xff :: (b ++ rest) from rfl,
        untilBreak_seqOf (dec_break levels) _ maxElements _ _ _ hlen (ihl levels _ ((withinL_iff ..).1 hin))]
      simp only [cborVals_map]
  | @openDict d d' a ds b hp _ _ ihl ih =>
    intro levels rest hw
    have := @cons (.dict d) ds (0xbf :: (a ++ [0xff])) b levels rest ?_ (ih levels rest fun d hd => hw d (List.mem_cons_of_mem _ hd))
    · simpa using this
    · obtain ⟨hlv, hlen, hord, hin⟩ := hw _ (List.mem_cons_self ..)
      obtain ⟨levels, rfl⟩ : ∃ k, levels = k + 1 := ⟨levels - 1, by omega⟩
      rw [withinD_iff] at hin
      have h2 := entries_read levels d d' hp hin _ _ (ihl levels (0xff :: (b ++ rest)))
      rw [dec.eq_def, show readHead (0xbf :: _ ++ _) = none from rfl, List.cons_append, List.append_assoc]
      simp only [List.head?_cons, List.tail_cons, cborVal]
      rw [if_neg (by decide), if_neg (by decide), if_neg (by decide), if_pos trivial, show [0xff] ++ (b ++ rest) = 0xff :: (b ++ rest) from rfl,
        untilBreak_seqOf (readPair_break _) _ maxElements _ _ _ hlen h2]
      simp only [cborEntries_map]
      rw [foldl_perm (d := d.map fun p => (p.1, cborVal p.2)) (sorted_map d hord) (hp.map _)]
  | no _ ih => intro levels rest hw; exact cons (a := [0xf4]) (by rw [dec.eq_def]; rfl) (ih levels rest fun d hd => hw d (List.mem_cons_of_mem _ hd))
  | yes _ ih => intro levels rest hw; exact cons (a := [0xf5]) (by rw [dec.eq_def]; rfl) (ih levels rest fun d hd => hw d (List.mem_cons_of_mem _ hd))
  | null _ ih => intro levels rest hw; exact cons (a := [0xf6]) (by rw [dec.eq_def]; rfl) (ih levels rest fun d hd => hw d (List.mem_cons_of_mem _ hd))
  | undefined _ ih => intro levels rest hw; exact cons (a := [0xf7]) (by rw [dec.eq_def]; rfl) (ih levels rest fun d hd => hw d (List.mem_cons_of_mem _ hd))
  | @half s ds b hs _ ih =>
    intro levels rest hw
    rw [← List.cons_append]
    refine cons ?_ (ih levels rest fun d hd => hw d (List.mem_cons_of_mem _ hd))
    have := bigEndian_lt s
    rw [hs] at this
    rw [dec.eq_def, List.cons_append, show readHead (0xf9 :: (s ++ (b ++ rest))) = _ from readHead_large 7 1 (by decide) (by decide) s hs (b ++ rest)]
    simp only [cborVal]
    rw [value_floatOf Formats.half rfl _ this]
    rfl
  | @single s ds b hs _ ih =>
    intro levels rest hw
    rw [← List.cons_append]
    refine cons ?_ (ih levels rest fun d hd => hw d (List.mem_cons_of_mem _ hd))
    have := bigEndian_lt s
    rw [hs] at this
    rw [dec.eq_def, List.cons_append, show readHead (0xfa :: (s ++ (b ++ rest))) = _ from readHead_large 7 2 (by decide) (by decide) s hs (b ++ rest)]
    simp only [cborVal]
    rw [value_floatOf Formats.single rfl _ this]
    rfl
  | @double s ds b hs _ ih =>
    intro levels rest hw
    rw [← List.cons_append]
    refine cons ?_ (ih levels rest fun d hd => hw d (List.mem_cons_of_mem _ hd))
    have := bigEndian_lt s
    rw [hs] at this
    rw [dec.eq_def, List.cons_append, show readHead (0xfb :: (s ++ (b ++ rest))) = _ from readHead_large 7 3 (by decide) (by decide) s hs (b ++ rest)]
    simp only [cborVal]
    rw [value_floatOf Formats.double rfl _ this]
    rfl

/-! ### Writing -/

theorem head_of (major n : Nat) (hn : n < 2 ^ 64) : Head major n (head major n) := by
  have key : ∀ k, k ≤ 3 → n < 256 ^ (2 ^ k) → Head major n (UInt8.ofNat (major * 32 + (24 + k)) :: be (2 ^ k) n) := by
    intro k hk h
    have := Head.large (major := major) k (be (2 ^ k) n) hk (be_length ..)
    rwa [bigEndian_be _ _ h, Nat.add_assoc, Nat.mul_comm] at this
  unfold head
  split
  · rw [Nat.mul_comm]; exact .small n ‹_›
  split
  · exact key 0 (by decide) (by simpa using ‹_›)
  split
  · exact key 1 (by decide) (by simpa using ‹_›)
  split
  · exact key 2 (by decide) (by simpa using ‹_›)
  · exact key 3 (by decide) (by simpa using hn)

theorem contents_map (l : List Val) : contents l = l.map content := by
  induction l with
  | nil => rfl
  | cons d l ih => rw [contents, ih, List.map_cons]

theorem entries_map (d : List (Str × Val)) : entries d = d.map fun p => (p.1, content p.2) := by
  induction d with
  | nil => rfl
  | cons p d ih => obtain ⟨k, v⟩ := p; rw [entries, ih, List.map_cons]

/-- The value is written the way the format wants it, whatever comes after it. -/
def CborGood (order : List (Str × Str) → List (Str × Str)) (v : Val) : Prop :=
  ∃ b, enc order v = some b ∧ ∀ ds c, Formats.Cbor ds c → Formats.Cbor (content v :: ds) (b ++ c)

theorem cbor_special (f : GoFloat) (hf : ∀ neg m e, f ≠ .fin neg m e) (ds : List Data) (c : Str) (h : Formats.Cbor ds c) :
    Formats.Cbor (.float f :: ds) (special f ++ c) := by
  cases f with
  | fin neg m e => exact absurd rfl (hf neg m e)
  | inf neg => cases neg with
    | false =>
      have := Formats.Cbor.half (s := [0x7c, 0x00]) rfl h
      rwa [show half.value (bigEndian [0x7c, 0x00]) = .inf false by decide] at this
    | true =>
      have := Formats.Cbor.half (s := [0xfc, 0x00]) rfl h
      rwa [show half.value (bigEndian [0xfc, 0x00]) = .inf true by decide] at this
  | nan =>
      have := Formats.Cbor.half (s := [0x7e, 0x00]) rfl h
      rwa [show half.value (bigEndian [0x7e, 0x00]) = .nan by decide] at this

section
variable (order : List (Str × Str) → List (Str × Str))

theorem cborGood_f32 (f : GoFloat) (h : isFloat 8 23 f = true) : CborGood order (.f32 f) := by
  cases f with
  | fin neg m e =>
    obtain ⟨h1, h2⟩ := floatOf_bits 8 23 (by decide) neg m e h
    refine ⟨_, rfl, fun ds c hc => ?_⟩
    have := Formats.Cbor.single (s := be 4 (floatBits 8 23 neg m e)) (be_length ..) hc
    rwa [bigEndian_be _ _ h2, value_floatOf single rfl _ h2, show floatOf single.exp single.frac _ = _ from h1] at this
  | inf neg => exact ⟨_, rfl, cbor_special (.inf neg) (by simp)⟩
  | nan => exact ⟨_, rfl, cbor_special .nan (by simp)⟩

theorem cborGood_f64 (f : GoFloat) (h : isFloat 11 52 f = true) : CborGood order (.f64 f) := by
  cases f with
  | fin neg m e =>
    obtain ⟨h1, h2⟩ := floatOf_bits 11 52 (by decide) neg m e h
    refine ⟨_, rfl, fun ds c hc => ?_⟩
    have := Formats.Cbor.double (s := be 8 (floatBits 11 52 neg m e)) (be_length ..) hc
    rwa [bigEndian_be _ _ h2, value_floatOf double rfl _ h2, show floatOf double.exp double.frac _ = _ from h1] at this
  | inf neg => exact ⟨_, rfl, cbor_special (.inf neg) (by simp)⟩
  | nan => exact ⟨_, rfl, cbor_special .nan (by simp)⟩

theorem text_iff (s : Str) : Wamp.Cbor.text s = true ↔ Utf8 s ∧ s.length < 2 ^ 64 := by
  simp only [Wamp.Cbor.text, Bool.and_eq_true, decide_eq_true_eq, valid_iff]

theorem cborGood_str (s : Str) (h : Wamp.Cbor.text s = true) (ds : List Data) (c : Str) (hc : Formats.Cbor ds c) :
    Formats.Cbor (.text s :: ds) (head 3 s.length ++ s ++ c) := by
  rw [text_iff] at h
  exact .text (head_of 3 _ h.2) h.1 hc

theorem cborGood_arr (l : List Val) (hl : l.length ≤ 131072) (h : ∀ v ∈ l, CborGood order v) : CborGood order (.arr l) := by
  have key : ∀ l : List Val, (∀ v ∈ l, CborGood order v) → ∃ b, encL order l = some b ∧ Formats.Cbor (contents l) b := by
    intro l
    induction l with
    | nil => intro _; exact ⟨[], rfl, .done⟩
    | cons v l ih =>
      intro h
      obtain ⟨b, h1, h2⟩ := ih fun q hq => h q (List.mem_cons_of_mem _ hq)
      obtain ⟨a, h3, h4⟩ := h v (List.mem_cons_self ..)
      exact ⟨a ++ b, by simp only [encL, h1, h3], h4 _ _ h2⟩
  obtain ⟨b, h1, h2⟩ := key l h
  refine ⟨_, by simp only [enc, h1, Option.map_some]; rfl, fun ds c hc => ?_⟩
  refine .list ?_ h2 hc
  rw [contents_map, List.length_map]
  exact head_of 4 _ (by omega)

theorem cborGood_strs (l : List Str) (hl : l.length ≤ 131072) (h : ∀ s ∈ l, Wamp.Cbor.text s = true) : CborGood order (.strs l) := by
  refine ⟨_, rfl, fun ds c hc => ?_⟩
  refine .list ?_ ?_ hc
  · rw [List.length_map]; exact head_of 4 _ (by omega)
  · clear hl
    induction l with
    | nil => exact .done
    | cons s l ih =>
      exact cborGood_str s (h s (List.mem_cons_self ..)) _ _ (ih fun q hq => h q (List.mem_cons_of_mem _ hq))

theorem cborGood_map (horder : ∀ l, (order l).Perm l) (d : Dict) (hl : d.length ≤ 131072)
    (h : ∀ p ∈ d, Wamp.Cbor.text p.1 = true ∧ CborGood order p.2) : CborGood order (.map d) := by
  -- every entry with the bytes of its value
  have key : ∀ d : Dict, (∀ p ∈ d, Wamp.Cbor.text p.1 = true ∧ CborGood order p.2) →
      ∃ ts : List (Str × Str × Data), encM order d = some (ts.map fun t => (t.1, t.2.1)) ∧
        entries d = ts.map (fun t => (t.1, t.2.2)) ∧
        ∀ t ∈ ts, Wamp.Cbor.text t.1 = true ∧ ∀ ds c, Formats.Cbor ds c → Formats.Cbor (t.2.2 :: ds) (t.2.1 ++ c) := by
    intro d
    induction d with
    | nil => intro _; exact ⟨[], rfl, rfl, by simp⟩
    | cons p d ih =>
      intro h
      obtain ⟨ts, h1, h2, h3⟩ := ih fun q hq => h q (List.mem_cons_of_mem _ hq)
      obtain ⟨ht, b, hb, hd⟩ := h p (List.mem_cons_self ..)
      obtain ⟨k, v⟩ := p
      refine ⟨(k, b, content v) :: ts, ?_, ?_, ?_⟩
      · simp only [encM, hb, h1, List.map_cons]
      · simp only [List.map_cons, entries, h2]
      · intro t htm
        rcases List.mem_cons.1 htm with rfl | htm
        · exact ⟨ht, hd⟩
        · exact h3 t htm
  obtain ⟨ts, h1, h2, h3⟩ := key d h
  obtain ⟨ts', hp, he⟩ := perm_map_inv _ (horder (ts.map fun t => (t.1, t.2.1)))
  refine ⟨_, by simp only [enc, h1, Option.map_some]; rfl, fun ds c hc => ?_⟩
  rw [he, List.flatMap_map]
  refine .dict (d' := ts'.map fun t => (t.1, t.2.2)) ?_ (by rw [h2]; exact hp.map _) ?_ hc
  · rw [entries_map, List.length_map]; exact head_of 5 _ (by omega)
  · have h4 : ∀ t ∈ ts', Wamp.Cbor.text t.1 = true ∧ ∀ ds c, Formats.Cbor ds c → Formats.Cbor (t.2.2 :: ds) (t.2.1 ++ c) :=
      fun t ht => h3 t (hp.mem_iff.1 ht)
    clear hp he
    induction ts' with
    | nil => exact .done
    | cons t ts' ih =>
      obtain ⟨g1, g2⟩ := h4 t (List.mem_cons_self ..)
      have := cborGood_str t.1 g1 _ _ (g2 _ _ (ih fun q hq => h4 q (List.mem_cons_of_mem _ hq)))
      simpa only [List.map_cons, List.flatMap_cons, List.append_assoc, List.cons_append, List.nil_append] using this

mutual
/-- What fits is written the way the format wants it. -/
theorem cbor_write (horder : ∀ l, (order l).Perm l) (levels : Nat) (v : Val) (h : fits levels v = true) : CborGood order v := by
  cases v with
  | nil => exact ⟨_, rfl, fun _ _ hc => .null hc⟩
  | bool b => cases b with
    | false => exact ⟨_, rfl, fun _ _ hc => .no hc⟩
    | true => exact ⟨_, rfl, fun _ _ hc => .yes hc⟩
  | arrNil => exact ⟨_, rfl, fun _ _ hc => .null hc⟩
  | strsNil => exact ⟨_, rfl, fun _ _ hc => .null hc⟩
  | mapNil => exact ⟨_, rfl, fun _ _ hc => .null hc⟩
  | other t => simp [fits] at h
  | int k v =>
    simp only [fits, decide_eq_true_eq] at h
    refine ⟨_, rfl, fun ds c hc => ?_⟩
    by_cases hv : 0 ≤ v
    · rw [if_pos hv]
      have := Formats.Cbor.unsigned (head_of 0 v.toNat (by omega)) hc
      rwa [show ((v.toNat : Nat) : Int) = v by omega] at this
    · rw [if_neg hv]
      have := Formats.Cbor.negative (head_of 1 (-1 - v).toNat (by omega)) hc
      rwa [show (-1 - ((-1 - v).toNat : Int)) = v by omega] at this
  | uint k n =>
    simp only [fits, decide_eq_true_eq] at h
    exact ⟨_, rfl, fun ds c hc => .unsigned (head_of 0 n h) hc⟩
  | f32 f => exact cborGood_f32 order f h
  | f64 f => exact cborGood_f64 order f h
  | str s => exact ⟨_, rfl, cborGood_str s h⟩
  | named s => exact ⟨_, rfl, cborGood_str s h⟩
  | bytes b =>
    simp only [fits, decide_eq_true_eq] at h
    exact ⟨_, rfl, fun ds c hc => .bytes (head_of 2 _ h) hc⟩
  | strs l =>
    simp only [fits, Bool.and_eq_true, decide_eq_true_eq, List.all_eq_true] at h
    exact cborGood_strs order l h.1.2 h.2
  | arr l =>
    simp only [fits, Bool.and_eq_true, decide_eq_true_eq] at h
    exact cborGood_arr order l h.1.2 (cbor_writeL horder (levels - 1) l h.2)
  | map d =>
    simp only [fits, Bool.and_eq_true, decide_eq_true_eq] at h
    exact cborGood_map order horder d h.1.1.2 (cbor_writeM horder (levels - 1) d h.2)
termination_by sizeOf v
theorem cbor_writeL (horder : ∀ l, (order l).Perm l) (levels : Nat) (l : List Val) (h : fitsL levels l = true) :
    ∀ v ∈ l, CborGood order v := by
  cases l with
  | nil => intro v hv; cases hv
  | cons v l =>
    simp only [fitsL, Bool.and_eq_true] at h
    intro w hw
    rcases List.mem_cons.1 hw with hv | hw
    · rw [hv]; exact cbor_write horder levels v h.1
    · exact cbor_writeL horder levels l h.2 w hw
termination_by sizeOf l
theorem cbor_writeM (horder : ∀ l, (order l).Perm l) (levels : Nat) (d : List (Str × Val)) (h : fitsM levels d = true) :
    ∀ p ∈ d, Wamp.Cbor.text p.1 = true ∧ CborGood order p.2 := by
  match d, h with
  | [], _ => intro v hv; cases hv
  | (k, v) :: d, h =>
    simp only [fitsM, Bool.and_eq_true] at h
    intro w hw
    rcases List.mem_cons.1 hw with hv | hw
    · rw [hv]; exact ⟨h.1.1, cbor_write horder levels v h.1.2⟩
    · exact cbor_writeM horder levels d h.2 w hw
termination_by sizeOf d
end

end

end Wamp.Formats
