import Verif.Model.Cbor
import Verif.Model.MsgPack
import Verif.Model.Json
/-!
# C146: no bytes are a message in two formats
-/
namespace Wamp.OneFormat
open Wamp

/-- The serializers. -/
inductive Format where
  | json | cbor | msgpack
  deriving DecidableEq

/-- `JSONSerializer`, `CBORSerializer` and `MsgPackSerializer`; `order` is the order in which Go happens to walk through a map when it writes it. -/
def Format.codec (order : List (Str × Str) → List (Str × Str)) : Format → Codec
  | .json => Json.codec
  | .cbor => Cbor.codec order
  | .msgpack => MsgPack.codec order

private theorem seqOf_len {α : Type} (f : Str → Option (α × Str)) (n : Nat) : ∀ {s l r}, Cbor.seqOf f n s = some (l, r) → l.length = n := by
  induction n with
  | zero => intro s l r h; cases h; rfl
  | succ n ih =>
    intro s l r h
    simp only [Cbor.seqOf] at h
    split at h
    · cases h
    · split at h
      · cases h
      · next h2 => cases h; simp [ih h2]

/-- A list that is read as a message has two to seven elements. -/
private theorem length_of {c : Codec} {b : Str} {m : Msg} (h : c.deserialize b = .ok m) : ∃ l, c.dec b = some l ∧ 2 ≤ l.length ∧ l.length ≤ 7 := by
  simp only [Codec.deserialize] at h
  cases hd : c.dec b with
  | none => simp [hd, Res.ofOption, Res.bind] at h
  | some l =>
    refine ⟨l, rfl, ?_⟩
    simp only [hd, Res.ofOption, Res.bind] at h
    cases ht : toMessage l with
    | err => simp [ht] at h
    | panic => simp [ht] at h
    | ok m' =>
      simp only [ht, parse] at h
      cases hv : validateMessage l m'.kind.vspec with
      | err => simp [hv, Res.bind] at h
      | panic => simp [hv, Res.bind] at h
      | ok f =>
        simp only [validateMessage] at hv
        split at hv
        · cases hv
        · split at hv
          · cases hv
          · rename_i h1 h2
            have : 2 ≤ m'.kind.vspec.min ∧ m'.kind.vspec.max ≤ 7 := by cases m'.kind <;> decide
            omega

private theorem json_first {b : Str} {l : List Val} (h : Json.decode b = some l) : ∃ c s, b = c :: s ∧ c.toNat ∈ [0x20, 9, 10, 13, 0x5b, 0x6e] := by
  cases b with
  | nil => simp [Json.decode, Json.dec.eq_def, Json.skip] at h
  | cons c s =>
    refine ⟨c, s, rfl, ?_⟩
    cases hs : Json.isSpace c with
    | true =>
      simp only [Json.isSpace, Bool.or_eq_true, decide_eq_true_eq] at hs
      rcases hs with (rfl | rfl) | (rfl | rfl) <;> decide
    | false =>
      have hk : Json.skip (c :: s) = c :: s := by simp [Json.skip, hs]
      refine Classical.byContradiction fun hn => ?_
      simp only [List.mem_cons, List.not_mem_nil, or_false, not_or] at hn
      have h1 : c ≠ 0x5b := fun e => hn.2.2.2.2.1 (e ▸ rfl)
      have h2 : ∀ t, Json.literal (c :: s) = some (.nil, t) → False := by
        intro t ht
        simp only [Json.literal] at ht
        split at ht
        · rename_i e; cases e; exact hn.2.2.2.2.2 rfl
        · cases ht
        · cases ht
        · cases ht
      have h3 : ∀ l t, Json.literal (c :: s) = some (.arr l, t) → False := by
        intro l t ht
        simp only [Json.literal] at ht
        split at ht <;> cases ht
      have key : ∀ v t, Json.dec 10000 (c :: s) = some (v, t) → v ≠ .nil ∧ ∀ l, v ≠ .arr l := by
        intro v t hd
        rw [Json.dec.eq_def] at hd
        simp only [hk, if_neg h1] at hd
        split at hd
        · split at hd
          · cases hd; exact ⟨(by intro h; cases h), (by intro l h; cases h)⟩
          · cases hd
        · split at hd
          · split at hd
            · cases hd; exact ⟨(by intro h; cases h), (by intro l h; cases h)⟩
            · cases hd
          · split at hd
            · split at hd
              · split at hd
                · cases hd; exact ⟨(by intro h; cases h), (by intro l h; cases h)⟩
                · cases hd
              · cases hd
            · refine ⟨?_, fun l => ?_⟩
              · rintro rfl; exact h2 _ hd
              · rintro rfl; exact h3 _ _ hd
      simp only [Json.decode] at h
      split at h
      · rename_i e; exact (key _ _ e).2 _ rfl
      · rename_i e; exact (key _ _ e).1 rfl
      · cases h

private theorem cbor_first {b : Str} {l : List Val} (h : Cbor.decode b = some l) (hl : l ≠ []) :
    ∃ c s, b = c :: s ∧ 0x80 ≤ c.toNat ∧ c.toNat < 0xa0 ∧ (c.toNat < 0x98 → l.length = c.toNat - 0x80) := by
  cases b with
  | nil => simp [Cbor.decode, Cbor.dec.eq_def, Cbor.readHead] at h
  | cons c s =>
    refine ⟨c, s, rfl, ?_⟩
    simp only [Cbor.decode] at h
    split at h
    · rename_i l' e
      cases h
      rw [Cbor.dec.eq_def] at e
      split at e
      · simp only [List.head?_cons, Option.some.injEq] at e
        split at e
        · split at e <;> cases e
        · split at e
          · split at e <;> cases e
          · split at e
            · rename_i e3
              subst e3
              exact ⟨by decide, by decide, fun h => absurd h (by decide)⟩
            · split at e
              · try simp only at e
                split at e <;> cases e
              · cases e
      · rename_i major info n s' hr
        simp only [Cbor.readHead] at hr
        split at e
        · cases e
        · split at e <;> cases e
        · split at e <;> cases e
        · split at e
          · split at e <;> cases e
          · cases e
        · simp only at e
          split at e
          · cases e
          · split at e
            · rename_i hq
              cases e
              have hlen := seqOf_len _ _ hq
              split at hr
              · simp only [Option.some.injEq, Prod.mk.injEq] at hr
                omega
              · split at hr
                · split at hr
                  · cases hr
                  · simp only [Option.some.injEq, Prod.mk.injEq] at hr
                    omega
                · cases hr
            · cases e
        · simp only at e
          split at e
          · cases e
          · split at e <;> cases e
        · simp only at e
          split at e <;> cases e
        · split at e
          · cases e
          · split at e <;> first | cases e | (split at e <;> cases e)
    · cases h; exact absurd rfl hl
    · cases h

private theorem item_flat (c : Nat) : (∀ l, MsgPack.item c = .val (.arr l) → False) ∧ (∀ k f, MsgPack.item c = .num k f → ∀ n l, f n = .arr l → False) := by
  constructor
  · intro l h
    simp only [MsgPack.item] at h
    repeat' split at h
    all_goals cases h
  · intro k f h n l hf
    simp only [MsgPack.item] at h
    repeat' split at h
    all_goals first | (cases h; done) | (cases h; cases hf)

private theorem msgpack_first {b : Str} {l : List Val} (h : MsgPack.decode b = some l) (hl : l ≠ []) :
    ∃ c s, b = c :: s ∧ ((0x90 ≤ c.toNat ∧ c.toNat < 0xa0 ∧ l.length = c.toNat - 0x90) ∨ c.toNat = 0xdc ∨ c.toNat = 0xdd) := by
  cases b with
  | nil => simp [MsgPack.decode, MsgPack.dec.eq_def] at h
  | cons c s =>
    refine ⟨c, s, rfl, ?_⟩
    simp only [MsgPack.decode] at h
    split at h
    · rename_i l' t e
      cases h
      have hi : ∀ {k n : Nat}, MsgPack.item c.toNat = .arr k n → (0x90 ≤ c.toNat ∧ c.toNat < 0xa0 ∧ k = 0 ∧ n = c.toNat - 0x90) ∨ c.toNat = 0xdc ∨ c.toNat = 0xdd := by
        intro k n hi
        simp only [MsgPack.item] at hi
        split at hi
        · cases hi
        · split at hi
          · cases hi
          · split at hi
            · cases hi; rename_i h1 h2; exact .inl ⟨by omega, h2, rfl, rfl⟩
            · split at hi
              · cases hi
              · split at hi
                · cases hi
                · split at hi <;> first | cases hi | skip
                  · rename_i e; exact .inr (.inl e)
                  · rename_i e; exact .inr (.inr e)
      rw [MsgPack.dec.eq_def] at e
      simp only at e
      split at e
      · rename_i v hv
        simp only [Option.some.injEq, Prod.mk.injEq] at e
        rw [e.1] at hv
        exact ((item_flat c.toNat).1 _ hv).elim
      · rename_i k f hv
        split at e
        · rename_i n s' hr
          simp only [Option.some.injEq, Prod.mk.injEq] at e
          exact ((item_flat c.toNat).2 _ _ hv _ _ e.1).elim
        · cases e
      · split at e
        · split at e <;> cases e
        · cases e
      · split at e
        · split at e <;> cases e
        · cases e
      · rename_i k n hv
        simp only [List.length_cons] at e
        split at e
        · rename_i n' s' hr
          split at e
          · rename_i hq
            cases e
            rcases hi hv with ⟨g1, g2, g3, g4⟩ | g
            · simp only [MsgPack.readLen, if_pos g3, Option.some.injEq, Prod.mk.injEq] at hr
              refine .inl ⟨g1, g2, ?_⟩
              rw [seqOf_len _ _ hq, ← hr.1, g4]
            · exact .inr g
          · cases e
        · cases e
      · simp only [List.length_cons] at e
        split at e
        · split at e <;> cases e
        · cases e
      · cases e
    · cases h; exact absurd rfl hl
    · cases h

/-- **C146** No byte string is read as a message by two of the serializers. -/
theorem C146_one_format {order order' : List (Str × Str) → List (Str × Str)} {b : Str} {i j : Format} {m m' : Msg}
    (hi : (i.codec order).deserialize b = .ok m) (hj : (j.codec order').deserialize b = .ok m') : i = j := by
  obtain ⟨l, e1, e2, e3⟩ := length_of hi
  obtain ⟨l', f1, f2, f3⟩ := length_of hj
  have n1 : l ≠ [] := by rintro rfl; cases e2
  have n2 : l' ≠ [] := by rintro rfl; cases f2
  have jc : ∀ {l l'}, Json.decode b = some l → Cbor.decode b = some l' → l' ≠ [] → False := by
    intro l l' h1 h2 hne
    obtain ⟨c, s, rfl, g⟩ := json_first h1
    obtain ⟨c', s', e, g'⟩ := cbor_first h2 hne
    cases e
    simp only [List.mem_cons, List.not_mem_nil, or_false] at g
    omega
  have jm : ∀ {l l'}, Json.decode b = some l → MsgPack.decode b = some l' → l' ≠ [] → False := by
    intro l l' h1 h2 hne
    obtain ⟨c, s, rfl, g⟩ := json_first h1
    obtain ⟨c', s', e, g'⟩ := msgpack_first h2 hne
    cases e
    simp only [List.mem_cons, List.not_mem_nil, or_false] at g
    omega
  have cm : ∀ {l l'}, Cbor.decode b = some l → MsgPack.decode b = some l' → l ≠ [] → l' ≠ [] → l.length ≤ 7 → l'.length ≤ 7 → False := by
    intro l l' h1 h2 hne hne' hl hl'
    obtain ⟨c, s, rfl, g1, g2, g3⟩ := cbor_first h1 hne
    obtain ⟨c', s', e, g'⟩ := msgpack_first h2 hne'
    cases e
    omega
  cases i <;> cases j <;> simp only [Format.codec] at e1 f1
  · rfl
  · exact (jc e1 f1 n2).elim
  · exact (jm e1 f1 n2).elim
  · exact (jc f1 e1 n1).elim
  · rfl
  · exact (cm e1 f1 n1 n2 e3 f3).elim
  · exact (jm f1 e1 n1).elim
  · exact (cm f1 e1 n2 n1 f3 e3).elim
  · rfl

private theorem marshal_shape (m : Msg) : ∃ n l, m.marshal = .uint .u64 n :: l ∧ 1 ≤ l.length ∧ l.length ≤ 6 := by
  cases m <;> refine ⟨_, _, rfl, ?_, ?_⟩ <;>
    simp only [marshalTail, marshalTailAbort, List.length_cons, List.length_nil] <;>
    first | omega | (split <;> split <;> first | omega | (simp; done) | (split <;> simp))

private theorem json_writes {m : Msg} {b : Str} (h : Json.codec.serialize m = .ok b) : ∃ s, b = 0x5b :: s := by
  simp only [Codec.serialize, Json.codec, Json.enc] at h
  cases he : Json.encL m.marshal with
  | none => simp [he, Res.ofOption] at h
  | some ps => simp only [he, Option.map_some, Res.ofOption, Res.ok.injEq] at h; exact ⟨_, h.symm⟩

private theorem cbor_writes {order : List (Str × Str) → List (Str × Str)} {m : Msg} {b : Str} (h : (Cbor.codec order).serialize m = .ok b) :
    ∃ n s, b = UInt8.ofNat (0x80 + n) :: s ∧ 2 ≤ n ∧ n ≤ 7 := by
  obtain ⟨t, l, e, l1, l2⟩ := marshal_shape m
  simp only [Codec.serialize, Cbor.codec, Cbor.enc] at h
  cases he : Cbor.encL order m.marshal with
  | none => simp [he, Res.ofOption] at h
  | some ps =>
    simp only [he, Option.map_some, Res.ofOption, Res.ok.injEq] at h
    have hl : m.marshal.length < 24 := by rw [e]; simp only [List.length_cons]; omega
    simp only [Cbor.head, if_pos hl] at h
    exact ⟨m.marshal.length, ps, h.symm, by rw [e]; simp only [List.length_cons]; omega, by rw [e]; simp only [List.length_cons]; omega⟩

private theorem msgpack_writes {order : List (Str × Str) → List (Str × Str)} {m : Msg} {b : Str} (h : (MsgPack.codec order).serialize m = .ok b) :
    ∃ n s, b = UInt8.ofNat (0x90 + n) :: 0xcf :: s ∧ 2 ≤ n ∧ n ≤ 7 := by
  obtain ⟨t, l, e, l1, l2⟩ := marshal_shape m
  simp only [Codec.serialize, MsgPack.codec, MsgPack.enc] at h
  cases he : MsgPack.encL order m.marshal with
  | none => simp [he, Res.ofOption] at h
  | some ps =>
    simp only [he, Option.map_some, Res.ofOption, Res.ok.injEq] at h
    have hl : m.marshal.length ≤ 15 := by rw [e]; simp only [List.length_cons]; omega
    simp only [MsgPack.arrHead, MsgPack.lenPrefix, if_pos hl] at h
    rw [e] at he
    simp only [MsgPack.encL, MsgPack.enc] at he
    cases hr : MsgPack.encL order l with
    | none => simp [hr] at he
    | some r =>
      simp only [hr, Option.some.injEq] at he
      exact ⟨m.marshal.length, Cbor.be 8 t ++ r, by rw [← h, ← he]; rfl, by rw [e]; simp only [List.length_cons]; omega,
        by rw [e]; simp only [List.length_cons]; omega⟩

private theorem small {n : Nat} (h1 : 2 ≤ n) (h2 : n ≤ 7) : n ∈ [2, 3, 4, 5, 6, 7] := by
  simp only [List.mem_cons, List.not_mem_nil, or_false]; omega

private theorem err_of_none {c : Codec} {b : Str} (h : c.dec b = none) : c.deserialize b = .err := by
  simp only [Codec.deserialize, h, Res.ofOption, Res.bind]

private theorem cbor_no_json (s : Str) : Cbor.decode (0x5b :: s) = none := by
  cases h : Cbor.decode (0x5b :: s) with
  | none => rfl
  | some l =>
    exfalso
    simp only [Cbor.decode] at h
    rw [Cbor.dec.eq_def] at h
    by_cases hl : s.length < 8
    · have : Cbor.readHead (0x5b :: s) = none := by
        simp only [Cbor.readHead]; simp; omega
      simp [this] at h
    · have : Cbor.readHead (0x5b :: s) = some (2, 27, Cbor.ofBE (s.take 8), s.drop 8) := by
        simp only [Cbor.readHead]; simp; omega
      simp only [this] at h
      cases hs : Cbor.split (Cbor.ofBE (s.take 8)) (s.drop 8) <;> simp [hs] at h

private theorem msgpack_no_json (s : Str) : MsgPack.decode (0x5b :: s) = none := rfl

private theorem json_none {c : UInt8} {s : Str} (h : c.toNat ∉ [0x20, 9, 10, 13, 0x5b, 0x6e]) : Json.decode (c :: s) = none := by
  cases hd : Json.decode (c :: s) with
  | none => rfl
  | some l =>
    obtain ⟨c', s', e, g⟩ := json_first hd
    cases e
    exact absurd g h

private theorem msgpack_no_cbor {n : Nat} {s : Str} (h1 : 2 ≤ n) (h2 : n ≤ 7) : MsgPack.decode (UInt8.ofNat (0x80 + n) :: s) = none := by
  cases h : MsgPack.decode (UInt8.ofNat (0x80 + n) :: s) with
  | none => rfl
  | some l =>
    exfalso
    have hi : MsgPack.item (UInt8.ofNat (0x80 + n)).toNat = .map 0 n := by
      have := small h1 h2
      simp only [List.mem_cons, List.not_mem_nil, or_false] at this
      rcases this with rfl | rfl | rfl | rfl | rfl | rfl <;> rfl
    simp only [MsgPack.decode] at h
    rw [MsgPack.dec.eq_def] at h
    simp only [hi, List.length_cons] at h
    split at h
    · rename_i e
      split at e
      · split at e <;> cases e
      · cases e
    · rename_i e
      split at e
      · split at e <;> cases e
      · cases e
    · cases h

private theorem cbor_no_msgpack {n : Nat} {s : Str} {l : List Val} (h1 : 2 ≤ n) (h2 : n ≤ 7)
    (h : Cbor.decode (UInt8.ofNat (0x90 + n) :: 0xcf :: s) = some l) : ∃ l', l = .other 6 :: l' := by
  have hr : Cbor.readHead (UInt8.ofNat (0x90 + n) :: 0xcf :: s) = some (4, 16 + n, 16 + n, 0xcf :: s) := by
    have := small h1 h2
    simp only [List.mem_cons, List.not_mem_nil, or_false] at this
    rcases this with rfl | rfl | rfl | rfl | rfl | rfl <;> rfl
  have tag : ∀ lv v t, Cbor.dec lv (0xcf :: s) = some (v, t) → v = .other 6 := by
    intro lv v t hd
    rw [Cbor.dec.eq_def] at hd
    have : Cbor.readHead (0xcf :: s) = some (6, 15, 15, s) := rfl
    simp only [this] at hd
    split at hd
    · cases hd
    · split at hd
      · cases hd; rfl
      · cases hd
  simp only [Cbor.decode] at h
  rw [Cbor.dec.eq_def] at h
  have hm : ¬ Cbor.maxElements < 16 + n := by simp only [Cbor.maxElements]; omega
  simp only [hr, if_neg hm] at h
  rw [show 16 + n = (15 + n) + 1 by omega] at h
  simp only [Cbor.seqOf] at h
  cases hd : Cbor.dec 31 (0xcf :: s) with
  | none => simp [hd] at h
  | some p =>
    obtain ⟨v, t⟩ := p
    have hv := tag _ _ _ hd
    subst hv
    simp only [hd] at h
    cases hq : Cbor.seqOf (Cbor.dec 31) (15 + n) t with
    | none => simp [hq] at h
    | some q =>
      obtain ⟨l', t'⟩ := q
      simp only [hq] at h
      cases t' with
      | nil => simp only [Option.some.injEq] at h; exact ⟨l', h.symm⟩
      | cons _ _ => simp at h

/-- **C146** Whatever message a serializer writes, each of the other two refuses the bytes with an error; it neither takes them for a message nor crashes. -/
theorem C146_refused {order order' : List (Str × Str) → List (Str × Str)} {b : Str} {i j : Format} {m : Msg}
    (hi : (i.codec order).serialize m = .ok b) (hne : j ≠ i) : (j.codec order').deserialize b = .err := by
  cases i with
  | json =>
    obtain ⟨s, rfl⟩ := json_writes hi
    cases j with
    | json => exact absurd rfl hne
    | cbor => exact err_of_none (cbor_no_json s)
    | msgpack => exact err_of_none (msgpack_no_json s)
  | cbor =>
    obtain ⟨n, s, rfl, h1, h2⟩ := cbor_writes hi
    cases j with
    | cbor => exact absurd rfl hne
    | json =>
      refine err_of_none (json_none ?_)
      have := small h1 h2
      simp only [List.mem_cons, List.not_mem_nil, or_false] at this
      rcases this with rfl | rfl | rfl | rfl | rfl | rfl <;> decide
    | msgpack => exact err_of_none (msgpack_no_cbor h1 h2)
  | msgpack =>
    obtain ⟨n, s, rfl, h1, h2⟩ := msgpack_writes hi
    cases j with
    | msgpack => exact absurd rfl hne
    | json =>
      refine err_of_none (json_none ?_)
      have := small h1 h2
      simp only [List.mem_cons, List.not_mem_nil, or_false] at this
      rcases this with rfl | rfl | rfl | rfl | rfl | rfl <;> decide
    | cbor =>
      cases hd : Cbor.decode (UInt8.ofNat (0x90 + n) :: 0xcf :: s) with
      | none => exact err_of_none hd
      | some l =>
        obtain ⟨l', rfl⟩ := cbor_no_msgpack h1 h2 hd
        simp only [Format.codec, Codec.deserialize, Cbor.codec, hd, Res.ofOption, Res.bind]
        rfl

/-- A subscription as each serializer writes it. -/
def greeting : Msg := .subscribe 7 (some []) (str "io.x")

/-- Each serializer writes it and reads it back, so the hypotheses of both theorems are met in every format. -/
example : ∀ i ∈ [Format.json, .cbor, .msgpack],
    (match (i.codec id).serialize greeting with
      | .ok b => match (i.codec id).deserialize b with
        | .ok (.subscribe r _ t) => decide (r = 7 ∧ t = str "io.x")
        | _ => false
      | _ => false) = true := by decide +kernel

/-- The bytes of the MsgPack serializer can be well-formed CBOR: a CBOR list of eighteen things, which is no message. -/
example : ∃ l, Cbor.decode ([0x92, 0xcf] ++ List.replicate 18 0x00) = some l ∧ l.length = 18 := ⟨_, rfl, rfl⟩

end Wamp.OneFormat
