import Verif.Lemmas.Cbor
import Verif.Props.Connection
import Verif.Props.Payload
/-!
# C95: the CBOR serializer, down to the bytes

No assumption about the codec here: `Cbor.codec` is the library's algorithm, for every order in which Go may walk through maps.
-/
namespace Wamp.Cbor
open Wamp Wamp.Spec

/-- The library does what C14, C18 and the rest assume of a codec, for all content that fits. -/
theorem C95_faithful (order : List (Str × Str) → List (Str × Str)) (horder : ∀ l, (order l).Perm l) :
    Faithful (codec order) cborWire Fits := by
  intro l hl
  obtain ⟨b, h1, h2⟩ := good order horder 32 (.arr l) hl
  refine ⟨b, h1, ?_⟩
  have := h2 []
  rw [List.append_nil] at this
  simp only [codec, decode, this, cborWire, wire, wireL_map]

/-- **C95** Every message of every type with content that fits (UTF-8 text, at most 32 levels, at most 131072 elements per list or map)
is written by `CBORSerializer.Serialize` and read back by `Deserialize` with the same IDs, URIs, options, args and kwargs. -/
theorem C95_roundtrip (order : List (Str × Str) → List (Str × Str)) (horder : ∀ l, (order l).Perm l) (m : Msg)
    (hfit : Fits m.marshal) (ht : Transmissible m) :
    ∃ b, (codec order).serialize m = .ok b ∧ (codec order).deserialize b = .ok (received cborWire m) :=
  (C14_roundtrip_partial Fits (codec order) m hfit ht).2.1 (C95_faithful order horder)

/-- **C95** The reader does not depend on the order in which the writer walked through its maps. -/
theorem C95_any_order (order order' : List (Str × Str) → List (Str × Str)) (horder : ∀ l, (order l).Perm l)
    (horder' : ∀ l, (order' l).Perm l) (l : List Val) (hl : Fits l) :
    ∃ b b', (codec order).enc l = some b ∧ (codec order').enc l = some b' ∧ decode b = decode b' := by
  obtain ⟨b, h1, h2⟩ := C95_faithful order horder l hl
  obtain ⟨b', h3, h4⟩ := C95_faithful order' horder' l hl
  exact ⟨b, b', h1, h3, h2.trans h4.symm⟩

/-- **C95** Any number of such messages over a raw socket, each below 2^24 bytes, cut anywhere. -/
theorem C95_connection (order : List (Str × Str) → List (Str × Str)) (horder : ∀ l, (order l).Perm l) (l : List Msg)
    (hl : ∀ m ∈ l, Fits m.marshal ∧ Transmissible m)
    (hsize : ∀ m ∈ l, ∀ b, (codec order).serialize m = .ok b → b.length < 2 ^ 24) :
    ∃ s, RawSocket.writeMessages (codec order) l = some s ∧ ∀ cut n, l.length ≤ n →
      ∃ k ≤ l.length, RawSocket.readMessages (codec order) n (s.take cut) = (l.take k).map (fun m => .ok (received cborWire m)) ∧
        ∀ j ≤ l.length, (j ≤ k ↔ ∃ p, RawSocket.writeMessages (codec order) (l.take j) = some p ∧ p.length ≤ cut) :=
  RawSocket.C94_connection (codec order) cborWire Fits l
    (fun m hm => ⟨C95_faithful order horder, (hl m hm).1, (hl m hm).2, .inr (.inl rfl)⟩) hsize

/-- **C95** The same for payloads (`SerializePayload`/`DeserializePayload` with serializer 3). -/
theorem C95_payload (order : List (Str × Str) → List (Str × Str)) (horder : ∀ l, (order l).Perm l) (cs : Codecs)
    (hc : cs.cbor = codec order) (args : GoSlice) (kwargs : GoMap) (hne : ¬ (args.getD [] = [] ∧ kwargs.getD [] = []))
    (hfit : Fits [.arr (args.getD []), .map (kwargs.getD [])]) :
    ∃ b, serializePayload cs 3 args kwargs = .ok b ∧
      deserializePayload cs 3 b = .ok (some ((args.getD []).map cborWire),
        if kwargs.getD [] = [] then none else some (onDict cborWire (kwargs.getD []))) := by
  refine C18_payload_roundtrip cs 3 (codec order) (by rw [← hc]; rfl) cborWire (wire_norm cborLeaf) Fits (C95_faithful order horder)
    args kwargs hne ?_
  rintro l (rfl | rfl)
  · simp only [Fits, fits, fitsL, Bool.and_eq_true, decide_eq_true_eq, List.length_cons, List.length_nil] at hfit ⊢
    exact ⟨⟨by omega, by omega⟩, hfit.2.1, trivial⟩
  · exact hfit

/-! ### The limits -/

/-- `n` lists inside each other. -/
def nest : Nat → Val
  | 0 => .nil
  | n + 1 => .arr [nest n]

theorem enc_nest (order : List (Str × Str) → List (Str × Str)) (n : Nat) :
    enc order (nest n) = some (List.replicate n 0x81 ++ [0xf6]) := by
  induction n with
  | zero => rfl
  | succ n ih =>
    simp only [nest, enc, encL, ih, Option.map_some, List.append_nil]
    rfl

theorem dec_nest (n levels : Nat) (h : levels < n) (rest : Str) : dec levels (List.replicate n 0x81 ++ rest) = none := by
  induction levels generalizing n with
  | zero =>
    obtain ⟨n, rfl⟩ : ∃ k, n = k + 1 := ⟨n - 1, by omega⟩
    rw [List.replicate_succ, List.cons_append, dec.eq_def, show readHead (0x81 :: _) = _ from readHead_short 4 1 (by decide) (by decide) _]
    rfl
  | succ levels ih =>
    obtain ⟨n, rfl⟩ : ∃ k, n = k + 1 := ⟨n - 1, by omega⟩
    rw [List.replicate_succ, List.cons_append, dec.eq_def, show readHead (0x81 :: _) = _ from readHead_short 4 1 (by decide) (by decide) _]
    simp only [seqOf]
    rw [if_neg (by decide), ih n (by omega)]

/-- The value can be written but is refused by the reader, whatever follows. -/
def Refused (order : List (Str × Str) → List (Str × Str)) (levels : Nat) (v : Val) : Prop :=
  ∃ b, enc order v = some b ∧ ∀ rest, dec levels (b ++ rest) = none

/-- A list with an element that is refused is refused. -/
theorem refused_list (order : List (Str × Str) → List (Str × Str)) (levels : Nat) (pre : List Val) (v : Val) (post : List Val)
    (hpre : ∀ x ∈ pre, Good order levels x) (hv : Refused order levels v) (hpost : ∀ x ∈ post, ∃ b, enc order x = some b)
    (hlen : (pre ++ v :: post).length < 2 ^ 64) : Refused order (levels + 1) (.arr (pre ++ v :: post)) := by
  have hp : ∃ b, encL order post = some b := by
    clear hlen
    induction post with
    | nil => exact ⟨[], rfl⟩
    | cons x l ih =>
      obtain ⟨b, hb⟩ := ih fun y hy => hpost y (List.mem_cons_of_mem _ hy)
      obtain ⟨a, ha⟩ := hpost x (List.mem_cons_self ..)
      exact ⟨_, by simp only [encL, ha, hb]; rfl⟩
  have key : ∀ k, ∃ b, encL order (pre ++ v :: post) = some b ∧ ∀ rest, seqOf (dec levels) (pre.length + 1 + k) (b ++ rest) = none := by
    intro k
    clear hlen
    induction pre with
    | nil =>
      obtain ⟨b, hb, hd⟩ := hv
      obtain ⟨c, hc⟩ := hp
      refine ⟨b ++ c, by simp only [List.nil_append, encL, hb, hc], fun rest => ?_⟩
      rw [show [].length + 1 + k = k + 1 by simp; omega, seqOf, List.append_assoc, hd]
    | cons x pre ih =>
      obtain ⟨c, hc, hd⟩ := ih fun y hy => hpre y (List.mem_cons_of_mem _ hy)
      obtain ⟨a, ha, hx⟩ := hpre x (List.mem_cons_self ..)
      refine ⟨a ++ c, by simp only [List.cons_append, encL, ha, hc], fun rest => ?_⟩
      rw [show (x :: pre).length + 1 + k = (pre.length + 1 + k) + 1 by simp; omega, seqOf, List.append_assoc, hx]
      simp only [hd]
  obtain ⟨b, h1, h2⟩ := key post.length
  refine ⟨_, by simp only [enc, h1, Option.map_some]; rfl, fun rest => ?_⟩
  obtain ⟨info, hi⟩ := readHead_head 4 (pre ++ v :: post).length (by decide) hlen (b ++ rest)
  rw [List.append_assoc, dec.eq_def, hi]
  simp only
  rw [show (pre ++ v :: post).length = pre.length + 1 + post.length by simp; omega, h2]
  simp

theorem deserialize_refused (order : List (Str × Str) → List (Str × Str)) (m : Msg) (h : Refused order 32 (.arr m.marshal)) :
    ∃ b, (codec order).serialize m = .ok b ∧ (codec order).deserialize b = .err := by
  obtain ⟨b, h1, h2⟩ := h
  refine ⟨b, by simp [Codec.serialize, codec, h1, Res.ofOption], ?_⟩
  have := h2 []
  rw [List.append_nil] at this
  simp [Codec.deserialize, codec, decode, this, Res.ofOption]

/-- **C95** The nesting limit is real: deeper nesting is written without complaint but not read.  The first argument of a PUBLISH may
consist of 30 lists inside each other, not of more. -/
theorem C95_nesting (order : List (Str × Str) → List (Str × Str)) (horder : ∀ l, (order l).Perm l) (r : Nat) (hr : r < 2 ^ 64) (t : Str)
    (ht : text t = true) (n : Nat) (hn : 30 < n) :
    ∃ b, (codec order).serialize (newPublish r none t (some [nest n]) none) = .ok b ∧ (codec order).deserialize b = .err := by
  refine deserialize_refused order _ (refused_list order 31 [.u64 16, .u64 r, .map [], .str t] (.arr [nest n]) [] ?_ ?_ (by simp) (by simp))
  · refine goodL order horder 31 _ ?_
    simp [fitsL, fits, ht, hr, sortedKeys, fitsM]
  · refine ⟨List.replicate (n + 1) 0x81 ++ [0xf6], enc_nest order (n + 1), fun rest => ?_⟩
    rw [List.append_assoc]
    exact dec_nest (n + 1) 31 (by omega) _

/-- **C95** So is the one on text: a topic that is not UTF-8 is written without complaint but not read, whatever the rest of the
PUBLISH. -/
theorem C95_not_utf8 (order : List (Str × Str) → List (Str × Str)) (horder : ∀ l, (order l).Perm l) (r : Nat) (hr : r < 2 ^ 64)
    (o : Dict) (ho : fits 31 (.map o) = true) (t : Str) (hlen : t.length < 2 ^ 64) (ht : validUtf8 t = false) (a : List Val) (k : Dict)
    (ha : ∃ b, enc order (.arr a) = some b) (hk : ∃ b, enc order (.map k) = some b) :
    ∃ b, (codec order).serialize (newPublish r (some o) t (some a) (some k)) = .ok b ∧ (codec order).deserialize b = .err := by
  refine deserialize_refused order _ (refused_list order 31 [.u64 16, .u64 r, .map o] (.str t) [.arr a, .map k] ?_ ?_ ?_ (by simp))
  · refine goodL order horder 31 _ ?_
    simp only [fitsL, Bool.and_eq_true, Bool.and_true]
    exact ⟨by simp [fits], by simp [fits, hr], ho⟩
  · refine ⟨_, rfl, fun rest => ?_⟩
    obtain ⟨info, hi⟩ := readHead_head 3 t.length (by decide) hlen (t ++ rest)
    rw [List.append_assoc, dec.eq_def, hi]
    simp [split_append, ht]
  · intro x hx
    simp only [List.mem_cons, List.not_mem_nil, or_false] at hx
    rcases hx with rfl | rfl
    · exact ha
    · exact hk

/-! ### Crashes (C12) -/

/-- **C12** The crashes of the parser can be caused by bytes of a peer: a single byte is enough (an empty list, or null). -/
theorem C12_cbor_bytes (order : List (Str × Str) → List (Str × Str)) :
    (codec order).deserialize [0x80] = .panic ∧ (codec order).deserialize [0xf6] = .panic ∧
    (codec order).deserialize [0x82, 0x01, 0x60] = .panic := by
  exact ⟨rfl, rfl, rfl⟩

/-! ### Cases -/

/-- The message of the following example: all kinds of values. -/
def sample : Msg := newCall 7 (some [(str "timeout", .int .int (-5))]) (str "com.p")
  (some [.bool true, .f64 (.fin true (2 ^ 52 + 1) (-53)), .f32 .nan, .bytes [1, 2], nest 30])
  (some [(str "a", .strs [str "x", [0xc3, 0xa9]]), (str "k", .arr [.nil, .u64 (2 ^ 63)])])

example : Fits sample.marshal ∧ Transmissible sample := ⟨by unfold Fits; decide +kernel, by decide, rfl⟩

/-- Reversing maps is a possible order. -/
example : ∀ l : List (Str × Str), l.reverse.Perm l := List.reverse_perm

example : ((codec List.reverse).serialize (newPublish 1 none (str "t") none (some [(str "a", .nil), (str "b", .bool true)]))) =
    .ok [0x86, 16, 1, 0xa0, 0x61, 116, 0x80, 0xa2, 0x61, 98, 0xf5, 0x61, 97, 0xf6] := by decide

example : validUtf8 [0xff] = false ∧ text (str "com.p") = true := by decide

end Wamp.Cbor
