import Verif.Lemmas.Json
import Verif.Props.Connection
import Verif.Props.Payload
/-!
# C97: the JSON serializer, down to the bytes

No assumption about the codec here: `Json.codec` is the library's algorithm.
-/
namespace Wamp.Json
open Wamp Wamp.Spec Wamp.Cbor

/-- The library does what C14, C18 and the rest assume of a codec, for all content that fits. -/
theorem C97_faithful : Faithful codec jsonWire (Fits) := by
  intro l hl
  obtain ⟨b, h1, h2⟩ := good 10000 (.arr l) hl
  refine ⟨b, h1, ?_⟩
  have := h2.2 [] (by intro c r h; cases h)
  rw [List.append_nil] at this
  simp only [codec, decode, this, jsonWire, wire, wireL_map, skip, List.dropWhile_nil, if_true]

/-- **C97** Every message of every type with content that fits (UTF-8 text, finite `float64`s, at most 10000 levels) and IDs up to 2^53
is written by `JSONSerializer.Serialize` and read back by `Deserialize` with the same IDs, URIs, options, args and kwargs, numbers
having become `float64` and bytes base64. -/
theorem C97_roundtrip (m : Msg) (hfit : Fits m.marshal) (ht : Transmissible m) (hids : ∀ n ∈ ids m, n ≤ 2 ^ 53) :
    ∃ b, codec.serialize m = .ok b ∧ codec.deserialize b = .ok (received jsonWire m) :=
  (C14_roundtrip_partial (Fits) codec m hfit ht).1 (C97_faithful) hids

/-- **C97** Any number of such messages over a raw socket, each below 2^24 bytes, cut anywhere. -/
theorem C97_connection (l : List Msg)
    (hl : ∀ m ∈ l, Fits m.marshal ∧ Transmissible m ∧ ∀ n ∈ ids m, n ≤ 2 ^ 53)
    (hsize : ∀ m ∈ l, ∀ b, codec.serialize m = .ok b → b.length < 2 ^ 24) :
    ∃ s, RawSocket.writeMessages codec l = some s ∧ ∀ cut n, l.length ≤ n →
      ∃ k ≤ l.length, RawSocket.readMessages codec n (s.take cut) = (l.take k).map (fun m => .ok (received jsonWire m)) ∧
        ∀ j ≤ l.length, (j ≤ k ↔ ∃ p, RawSocket.writeMessages codec (l.take j) = some p ∧ p.length ≤ cut) :=
  RawSocket.C94_connection codec jsonWire (Fits) l
    (fun m hm => ⟨C97_faithful, (hl m hm).1, (hl m hm).2.1, .inl ⟨rfl, (hl m hm).2.2⟩⟩) hsize

/-- **C97** The same for payloads (`SerializePayload`/`DeserializePayload` with serializer 1). -/
theorem C97_payload (cs : Codecs)
    (hc : cs.json = codec) (args : GoSlice) (kwargs : GoMap) (hne : ¬ (args.getD [] = [] ∧ kwargs.getD [] = []))
    (hfit : Fits [.arr (args.getD []), .map (kwargs.getD [])]) :
    ∃ b, serializePayload cs 1 args kwargs = .ok b ∧
      deserializePayload cs 1 b = .ok (some ((args.getD []).map jsonWire),
        if kwargs.getD [] = [] then none else some (onDict jsonWire (kwargs.getD []))) := by
  refine C18_payload_roundtrip cs 1 codec (by rw [← hc]; rfl) jsonWire (wire_norm jsonLeaf) (Fits) (C97_faithful)
    args kwargs hne ?_
  rintro l (rfl | rfl)
  · simp only [Fits, fits, fitsL, Bool.and_eq_true, decide_eq_true_eq] at hfit ⊢
    exact ⟨by omega, hfit.2.1, trivial⟩
  · exact hfit

/-- Everything is white space. -/
theorem skip_eq_nil (s : Str) : skip s = [] ↔ s.all isSpace = true := by
  induction s with
  | nil => simp [skip]
  | cons c s ih =>
    rw [skip] at ih ⊢
    rw [List.dropWhile_cons, List.all_cons]
    by_cases h : isSpace c
    · simp only [h, if_true, Bool.true_and]; exact ih
    · simp [h]

/-- **C97** A frame must end with the message: only white space may follow (unlike MsgPack). -/
theorem C97_trailing (m : Msg) (hfit : Fits m.marshal) (ht : Transmissible m) (hids : ∀ n ∈ ids m, n ≤ 2 ^ 53)
    (junk : Str) :
    ∃ b, codec.serialize m = .ok b ∧
      codec.deserialize (b ++ junk) = if junk.all isSpace then .ok (received jsonWire m) else .err := by
  obtain ⟨b, h1, h2⟩ := C97_roundtrip m hfit ht hids
  refine ⟨b, h1, ?_⟩
  unfold Fits at hfit
  simp only [fits, Bool.and_eq_true] at hfit
  obtain ⟨ts, g1, g2, g3⟩ := encL_good 9999 m.marshal (goodL 9999 _ hfit.2)
  have e : b = 0x5b :: (commas (ts.map Prod.fst) ++ [0x5d]) := by
    have : codec.serialize m = .ok (0x5b :: (commas (ts.map Prod.fst) ++ [0x5d])) := by
      simp [Codec.serialize, codec, enc, g1, Res.ofOption]
    rw [h1] at this; injection this
  have d := dec_list 9999 ts g3
  rw [← e] at d
  have d0 := d []
  rw [List.append_nil] at d0
  have dj : decode (b ++ junk) = if junk.all isSpace then decode b else none := by
    unfold decode
    simp only [d junk, d0, skip_eq_nil]
    simp
  simp only [Codec.deserialize, codec] at h2 ⊢
  rw [dj]
  split
  · exact h2
  · rfl

/-! ### The limits -/

/-- The reader's replacement is UTF-8 again. -/
theorem clean_utf8 (s : Str) : validUtf8 (clean s) = true := by
  have key : ∀ n, ∀ s : Str, s.length ≤ n → validUtf8 (clean s) = true := by
    intro n
    induction n with
    | zero =>
      intro s hs
      cases s with
      | nil => rfl
      | cons a s => simp at hs
    | succ n ih =>
      intro s hs
      have hrep : ∀ t, validUtf8 t = true → validUtf8 (replacement ++ t) = true := by
        intro t h
        rw [replacement, List.cons_append, List.cons_append, List.cons_append, List.nil_append, validUtf8.eq_def]
        simp only [show ¬ (0xef : UInt8).toNat < 0x80 by decide, show (within 0xef 0xc2 0xdf && within 0xbf 0x80 0xbf) = false by decide,
          show (within 0xef 0xe0 0xef && within 0xbf (if (0xef : UInt8) = 0xe0 then 0xa0 else 0x80) (if (0xef : UInt8) = 0xed then 0x9f else 0xbf) &&
            within 0xbd 0x80 0xbf) = true by decide, if_false, if_true, Bool.false_eq_true]
        exact h
      rcases s with _ | ⟨a, r1⟩
      · rfl
      rw [clean.eq_def]
      simp only [List.length_cons] at hs ⊢
      by_cases ha : a.toNat < 0x80
      · simp only [ha, if_true]
        rw [validUtf8.eq_def]
        simp only [ha, if_true]
        exact ih r1 (by omega)
      simp only [ha, if_false]
      rcases r1 with _ | ⟨b, r2⟩
      · exact hrep [] rfl
      simp only [List.length_cons] at hs ⊢
      by_cases h2 : two a b
      · simp only [h2, if_true]
        rw [validUtf8.eq_def]
        unfold two at h2
        simp only [ha, h2, if_false, if_true]
        exact ih r2 (by omega)
      simp only [h2, Bool.false_eq_true, if_false]
      rcases r2 with _ | ⟨c, r3⟩
      · exact hrep _ (ih [b] (by simp only [List.length_cons, List.length_nil] at hs ⊢; omega))
      simp only [List.length_cons] at hs ⊢
      by_cases h3 : three a b c
      · simp only [h3, if_true]
        rw [validUtf8.eq_def]
        unfold two at h2
        unfold three at h3
        simp only [ha, h2, if_false, Bool.false_eq_true]
        rw [if_pos h3]
        exact ih r3 (by omega)
      simp only [h3, Bool.false_eq_true, if_false]
      rcases r3 with _ | ⟨d, r4⟩
      · exact hrep _ (ih [b, c] (by simp only [List.length_cons, List.length_nil] at hs ⊢; omega))
      simp only [List.length_cons] at hs ⊢
      by_cases h4 : four a b c d
      · simp only [h4, if_true]
        rw [validUtf8.eq_def]
        unfold two at h2
        unfold three at h3
        unfold four at h4
        simp only [ha, h2, if_false, Bool.false_eq_true]
        rw [if_neg h3, if_pos h4]
        exact ih r4 (by omega)
      · simp only [h4, Bool.false_eq_true, if_false]
        exact hrep _ (ih (b :: c :: d :: r4) (by simp only [List.length_cons] at hs ⊢; omega))
  exact key s.length s (Nat.le_refl _)

/-- **C97** A topic that is not UTF-8 is written and read without an error, but the subscriber's topic is another one: every
byte that is not UTF-8 has become U+FFFD. -/
theorem C97_not_utf8 (r : Nat) (hr : r ≤ 2 ^ 53) (t : Str) (ht : validUtf8 t = false) :
    clean t ≠ t ∧ ∃ b, codec.serialize (newPublish r none t none none) = .ok b ∧
      codec.deserialize b = .ok (newPublish r none (clean t) none none) := by
  constructor
  · intro h
    have := clean_utf8 t
    rw [h, ht] at this
    cases this
  have hm : ∀ t, (newPublish r none t none none).marshal = [.u64 16, .u64 r, .map [], .str t] := fun t => rfl
  have hfit : Fits (newPublish r none (clean t) none none).marshal := by
    rw [hm]
    simp [Fits, fits, fitsL, fitsM, clean_utf8, sortedKeys]
    omega
  obtain ⟨b', h1, h2⟩ := C97_roundtrip (newPublish r none (clean t) none none) hfit
    (by simp [newPublish, Transmissible, orEmpty]) (by simpa [newPublish, ids] using hr)
  obtain ⟨b'', h3, h4⟩ := C97_faithful _ hfit
  have e : b'' = b' := by
    have : codec.serialize (newPublish r none (clean t) none none) = .ok b'' := by
      simp [Codec.serialize, h3, Res.ofOption]
    rw [h1] at this; injection this with this; exact this.symm
  subst e
  let ts : List (Str × Val) := [(decimal 16, .f64 (f64OfNat 16)), (decimal r, .f64 (f64OfNat r)), (str "{}", .map []),
    (quote t, .str (clean t))]
  refine ⟨0x5b :: (commas (ts.map Prod.fst) ++ [0x5d]), ?_, ?_⟩
  · rw [Codec.serialize, hm]
    rfl
  · have hd := dec_list 9999 ts (by
      intro u hu
      simp only [ts, List.mem_cons, List.not_mem_nil, or_false] at hu
      rcases hu with rfl | rfl | rfl | rfl
      · exact reads_number 9999 _ _ (natural_text 16 (by decide)).1 (natural_text 16 (by decide)).2
      · exact reads_number 9999 _ _ (natural_text r (by omega)).1 (natural_text r (by omega)).2
      · obtain ⟨b, h1, h2⟩ := good_map 9998 [] rfl (by simp)
        cases h1
        exact h2
      · exact reads_quoted 9999 (escape t) (clean t) (unescape_escape t)) []
    rw [List.append_nil] at hd
    have hdec : codec.dec (0x5b :: (commas (ts.map Prod.fst) ++ [0x5d])) = codec.dec b'' := by
      rw [h4, hm]
      simp only [codec, decode, hd]
      rfl
    rw [Codec.deserialize, hdec, ← Codec.deserialize, h2]
    rfl

/-- **C97** NaN and infinities cannot be sent: a PUBLISH with such an argument is refused by the serializer. -/
theorem C97_not_finite (r : Nat) (o : GoMap) (t : Str) (a : List Val) (k : GoMap) (f : GoFloat)
    (hf : ∀ neg m e, f ≠ .fin neg m e) (ha : .f64 f ∈ a ∨ .f32 f ∈ a) :
    codec.serialize (newPublish r o t (some a) k) = .err := by
  have h64 : enc (.f64 f) = none := by
    cases f with
    | fin neg m e => exact absurd rfl (hf neg m e)
    | _ => rfl
  have h32 : enc (.f32 f) = none := by
    cases f with
    | fin neg m e => exact absurd rfl (hf neg m e)
    | _ => rfl
  have hL : ∀ l : List Val, ∀ v ∈ l, enc v = none → encL l = none := by
    intro l
    induction l with
    | nil => intro v hv; cases hv
    | cons w l ih =>
      intro v hv he
      rw [encL]
      rcases List.mem_cons.1 hv with rfl | hv
      · rw [he]
      · rw [ih v hv he]
        cases enc w <;> rfl
  have harr : enc (.arr a) = none := by
    have : encL a = none := by
      rcases ha with ha | ha
      · exact hL a _ ha h64
      · exact hL a _ ha h32
    rw [enc, this]; rfl
  have hmem : Val.arr a ∈ (newPublish r o t (some a) k).marshal := by
    cases k <;> simp [newPublish, Msg.marshal, marshalTail]
  rw [Codec.serialize]
  have : codec.enc (newPublish r o t (some a) k).marshal = none := by
    simp only [codec, enc, hL _ _ hmem harr]
    rfl
  rw [this]
  rfl

/-- `n` lists inside each other. -/
def nest : Nat → Val
  | 0 => .nil
  | n + 1 => .arr [nest n]

theorem enc_nest (n : Nat) :
    enc (nest n) = some (List.replicate n 0x5b ++ str "null" ++ List.replicate n 0x5d) := by
  induction n with
  | zero => rfl
  | succ n ih =>
    simp only [nest, enc, encL, ih, Option.map_some, commas]
    rw [List.replicate_succ, List.replicate_succ']
    simp

theorem dec_nest (n levels : Nat) (h : levels < n) (rest : Str) : dec levels (List.replicate n 0x5b ++ rest) = none := by
  induction levels generalizing n with
  | zero =>
    obtain ⟨n, rfl⟩ : ∃ k, n = k + 1 := ⟨n - 1, by omega⟩
    rw [List.replicate_succ, List.cons_append, dec.eq_def, skip_start (by decide)]
    simp
  | succ levels ih =>
    obtain ⟨n, rfl⟩ : ∃ k, n = k + 2 := ⟨n - 2, by omega⟩
    have := ih (n + 1) (by omega)
    rw [List.replicate_succ, List.cons_append, dec.eq_def, skip_start (by decide)]
    simp only [show ¬ (0x5b : UInt8) = 0x22 by decide, if_false, if_true]
    rw [show items (dec levels) 0x5d (List.replicate (n + 1) 0x5b ++ rest) = none by
      rw [items, List.replicate_succ, List.cons_append, skip_start (by decide)]
      simp only [show ¬ (0x5b : UInt8) = 0x5d by decide, if_false, List.length_cons, listOf]
      rw [← List.cons_append, ← List.replicate_succ, this]]

theorem listOf_fails (levels : Nat) (close : UInt8) (h3 : close ≠ 0x2c) (ts : List (Str × Val))
    (h : ∀ t ∈ ts, Reads (dec levels) t.1 t.2) (b : Str) (hb : ∀ rest, dec levels (b ++ rest) = none) (n : Nat) (rest : Str) :
    listOf (dec levels) close n (commas (ts.map Prod.fst ++ [b]) ++ rest) = none := by
  induction ts generalizing n with
  | nil =>
    cases n with
    | zero => rfl
    | succ n => simp only [List.map_nil, List.nil_append, commas, listOf, hb]
  | cons t ts ih =>
    cases n with
    | zero => rfl
    | succ n =>
      have hs : isSpace 0x2c = false := by decide
      have := ih (fun t ht => h t (List.mem_cons_of_mem _ ht)) n
      rw [List.map_cons, List.cons_append, commas, listOf, List.append_assoc, List.cons_append,
        (h t (List.mem_cons_self ..)).2 _ (ends_cons (by decide) _)]
      · simp only [skip, List.dropWhile_cons, hs, Bool.false_eq_true, if_false, show ¬ 0x2c = close from fun h => h3 h.symm, if_true, this]
      · simp

/-- **C97** The nesting limit is real: deeper nesting is written without complaint but not read.  The first argument of a PUBLISH may
consist of 9998 lists inside each other, not of more. -/
theorem C97_nesting (r : Nat) (hr : r < 2 ^ 64) (t : Str) (ht : validUtf8 t = true) (n : Nat) (hn : 9998 < n) :
    ∃ b, codec.serialize (newPublish r none t (some [nest n]) none) = .ok b ∧ codec.deserialize b = .err := by
  obtain ⟨ts, g1, g2, g3⟩ := encL_good 9999 [.u64 16, .u64 r, .map [], .str t] (goodL 9999 _ (by
    simp [fitsL, fits, ht, sortedKeys, fitsM]; omega))
  have hL : ∀ (l : List Val) (ps : List Str) (v : Val) (b : Str), encL l = some ps → enc v = some b →
      encL (l ++ [v]) = some (ps ++ [b]) := by
    intro l
    induction l with
    | nil => intro ps v b h1 h2; cases h1; simp [encL, h2]
    | cons w l ih =>
      intro ps v b h1 h2
      rw [encL] at h1
      cases hw : enc w with
      | none => rw [hw] at h1; cases h1
      | some a =>
        cases hl : encL l with
        | none => rw [hw, hl] at h1; cases h1
        | some qs =>
          rw [hw, hl] at h1
          cases h1
          rw [List.cons_append, encL, hw, ih qs v b hl h2]
          rfl
  have he := hL _ _ _ _ g1 (enc_nest (n + 1))
  refine ⟨0x5b :: (commas (ts.map Prod.fst ++ [List.replicate (n + 1) 0x5b ++ str "null" ++ List.replicate (n + 1) 0x5d]) ++ [0x5d]), ?_, ?_⟩
  · rw [Codec.serialize, show (newPublish r none t (some [nest n]) none).marshal = [.u64 16, .u64 r, .map [], .str t] ++ [nest (n + 1)] from rfl]
    simp only [codec, enc, he]
    rfl
  · have hf : dec 10000 (0x5b :: (commas (ts.map Prod.fst ++ [List.replicate (n + 1) 0x5b ++ str "null" ++ List.replicate (n + 1) 0x5d]) ++
        [0x5d])) = none := by
      rw [dec.eq_def, skip_start (by decide)]
      simp only [show ¬ (0x5b : UInt8) = 0x22 by decide, if_false, if_true]
      have hts : ts ≠ [] := by rintro rfl; simp at g2
      obtain ⟨u, us, hu⟩ : ∃ u us, ts = u :: us := by
        cases ts with
        | nil => exact absurd rfl hts
        | cons u us => exact ⟨u, us, rfl⟩
      obtain ⟨⟨c, x, hc, hst⟩, -⟩ := g3 u (by rw [hu]; exact List.mem_cons_self ..)
      obtain ⟨y, hy⟩ := commas_head u.1 (us.map Prod.fst ++ [List.replicate (n + 1) 0x5b ++ str "null" ++ List.replicate (n + 1) 0x5d])
      have hs : skip (commas (ts.map Prod.fst ++ [List.replicate (n + 1) 0x5b ++ str "null" ++ List.replicate (n + 1) 0x5d]) ++ [0x5d]) =
          c :: (x ++ (y ++ [0x5d])) := by
        rw [hu, List.map_cons, List.cons_append, hy, hc, List.cons_append, List.cons_append, skip_start hst, List.append_assoc]
      rw [items, hs]
      simp only [(start_of hst).2, if_false]
      rw [listOf_fails 9999 0x5d (by decide) ts g3 _ (fun rest => by
        rw [List.append_assoc, List.append_assoc]
        exact dec_nest (n + 1) 9999 (by omega) _)]
    simp only [Codec.deserialize, codec, decode, hf]
    rfl

/-! ### Crashes (C12) -/

/-- **C12** The crashes of the parser can be caused by bytes of a peer: `[]`, `null` and `[1,""]`. -/
theorem C12_json_bytes :
    codec.deserialize (str "[]") = .panic ∧ codec.deserialize (str "null") = .panic ∧
    codec.deserialize (str "[1,\"\"]") = .panic := by
  refine ⟨rfl, rfl, ?_⟩
  have hd := dec_list 9999 [(decimal 1, .f64 (f64OfNat 1)), (quote [], .str [])] (by
    intro u hu
    simp only [List.mem_cons, List.not_mem_nil, or_false] at hu
    rcases hu with rfl | rfl
    · exact reads_number 9999 _ _ (natural_text 1 (by decide)).1 (natural_text 1 (by decide)).2
    · exact reads_quoted 9999 [] [] (unescape_escape [])) []
  rw [List.append_nil] at hd
  rw [show str "[1,\"\"]" = 0x5b :: (commas ([(decimal 1, Val.f64 (f64OfNat 1)), (quote [], Val.str [])].map Prod.fst) ++ [0x5d]) by
    decide +kernel]
  rw [show f64OfNat 1 = .fin false (2 ^ 52) (-52) by decide +kernel] at hd ⊢
  simp only [Codec.deserialize, codec, decode, hd]
  rfl

/-! ### Cases -/

/-- All kinds of values. -/
def sample : Msg := newCall 7 (some [(str "timeout", .int .int (-5))]) (str "com.p")
  (some [.bool true, .f64 (.fin false (2 ^ 52) (-53)), .f64 (.fin true (3 * 2 ^ 51) (-51)), .f32 (.fin false 13421773 (-27)), .bytes [1, 2], nest 30])
  (some [(str "a", .strs [str "x", [0xc3, 0xa9]]), (str "k<", .arr [.nil, .u64 (2 ^ 63)])])

example : Fits sample.marshal ∧ Transmissible sample ∧ ∀ n ∈ ids sample, n ≤ 2 ^ 53 :=
  ⟨by unfold Fits; decide +kernel, ⟨by decide, rfl⟩, by decide⟩

example : codec.serialize (newPublish 1 none (str "t\n") none (some [(str "a", .nil), (str "b<", .bool true)])) =
    .ok (str "[16,1,{},\"t\\n\",[],{\"a\":null,\"b\\u003c\":true}]") := by decide +kernel

example : validUtf8 [0xff] = false ∧ clean [0xff] = [0xef, 0xbf, 0xbd] := by decide

end Wamp.Json
