import Verif.Lemmas.FormatsMsgPack
import Verif.Props.Wire
/-!
# Messages with the content of a given message
-/
set_option linter.unusedSimpArgs false
namespace Wamp.Formats
open Wamp Wamp.Spec

theorem standsL_nil (l : List Val) : StandsL l [] ↔ l = [] := by
  constructor
  · intro h; cases h; rfl
  · rintro rfl; exact .nil

theorem standsL_cons (l : List Val) (d : Data) (ds : List Data) :
    StandsL l (d :: ds) ↔ ∃ v r, l = v :: r ∧ Stands v d ∧ StandsL r ds := by
  constructor
  · intro h; cases h with | cons h1 h2 => exact ⟨_, _, rfl, h1, h2⟩
  · rintro ⟨v, r, rfl, h1, h2⟩; exact .cons h1 h2

theorem stands_text (v : Val) (s : Str) : Stands v (.text s) ↔ v = .str s := by
  constructor
  · rintro ⟨h1, h2⟩; exact fresh_text h2 h1
  · rintro rfl; exact ⟨rfl, rfl⟩

theorem stands_null (v : Val) : Stands v .null ↔ v = .nil := by
  constructor
  · rintro ⟨h1, h2⟩; exact fresh_null h2 h1
  · rintro rfl; exact ⟨rfl, rfl⟩

theorem stands_list (v : Val) (l : List Data) : Stands v (.list l) ↔ ∃ a, v = .arr a ∧ contents a = l ∧ freshL a = true := by
  constructor
  · rintro ⟨h1, h2⟩; exact fresh_list h2 h1
  · rintro ⟨a, rfl, h1, h2⟩; exact ⟨by rw [content, h1], by rw [fresh, h2]⟩

theorem stands_dict (v : Val) (d : List (Str × Data)) : Stands v (.dict d) ↔ ∃ m, v = .map m ∧ entries m = d ∧ freshM m = true := by
  constructor
  · rintro ⟨h1, h2⟩; exact fresh_dict h2 h1
  · rintro ⟨a, rfl, h1, h2⟩; exact ⟨by rw [content, h1], by rw [fresh, h2]⟩

/-- A Go `int16`. -/
def isI16 : Val → Bool
  | .int .i16 _ => true
  | _ => false

/-- Integers of every Go type but one are accepted as identifiers. -/
theorem stands_id {v : Val} {n : Nat} (h : Stands v (.int n)) (hn : n < 2 ^ 64) : asUInt64 v = if isI16 v then none else some n := by
  obtain ⟨h1, h2⟩ := h
  cases v with
  | int k x =>
    rw [content] at h1
    injection h1 with h1
    subst h1
    have : ((n : Int) % 2 ^ 64).toNat = n := by omega
    cases k <;> simp only [asUInt64, isI16, this] <;> rfl
  | uint k x =>
    rw [content] at h1
    injection h1 with h1
    have : x = n := by omega
    subst this
    cases k <;> simp [asUInt64, isI16]
  | _ => simp [content] at h1

theorem entries_cons {m : Dict} {k : Str} {d : Data} {ds : List (Str × Data)} (h : entries m = (k, d) :: ds) (hf : freshM m = true) :
    ∃ v r, m = (k, v) :: r ∧ Stands v d ∧ entries r = ds ∧ freshM r = true := by
  cases m with
  | nil => simp [entries] at h
  | cons p m =>
    obtain ⟨k', v⟩ := p
    simp only [entries, List.cons.injEq, Prod.mk.injEq] at h
    simp only [freshM, Bool.and_eq_true] at hf
    obtain ⟨⟨rfl, h1⟩, h2⟩ := h
    exact ⟨v, m, rfl, ⟨h1, hf.1⟩, h2, hf.2⟩

theorem entries_nil {m : Dict} (h : entries m = []) : m = [] := by
  cases m with
  | nil => rfl
  | cons p m => simp [entries] at h

theorem contents_texts {l : List Val} {ms : List Str} (h : contents l = ms.map .text) (hf : freshL l = true) : l = ms.map .str := by
  induction ms generalizing l with
  | nil =>
    cases l with
    | nil => rfl
    | cons v l => simp [contents] at h
  | cons s ms ih =>
    cases l with
    | nil => simp [contents] at h
    | cons v l =>
      simp only [contents, List.map_cons, List.cons.injEq] at h
      simp only [freshL, Bool.and_eq_true] at hf
      rw [List.map_cons, fresh_text hf.1 h.1, ih h.2 hf.2]

theorem hello_stands (realm authID : Str) (ms : Option (List Str)) (x r : GoMap) (l : List Val)
    (h : StandsL l (contents (Msg.hello realm authID ms x r).marshal)) :
    ∃ m', contents m'.marshal = contents (filled (.hello realm authID ms x r)).marshal ∧
      shape .hello l = if l.tail.any isI16 then none else some m' := by
  simp only [Msg.marshal, Val.ofMap, orEmpty, contents, content, entries, standsL_cons, standsL_nil, stands_text, stands_dict] at h
  obtain ⟨t, _, rfl, ht0, _, _, rfl, rfl, _, _, rfl, ⟨d, rfl, hd, hf⟩, rfl⟩ := h
  obtain ⟨vx, d, rfl, hx, hd, hf⟩ := entries_cons hd hf
  obtain ⟨va, d, rfl, ha, hd, hf⟩ := entries_cons hd hf
  obtain ⟨vm, d, rfl, hm, hd, hf⟩ := entries_cons hd hf
  obtain ⟨vr, d, rfl, hr, hd, hf⟩ := entries_cons hd hf
  obtain rfl := entries_nil hd
  rw [stands_text] at ha
  subst ha
  obtain ⟨x', rfl, hx, _⟩ := (stands_dict ..).1 hx
  have hm' : ∃ ls, (vm = .arr ls ∨ vm = .nil ∧ ls = []) ∧ texts? ls = some (ms.getD []) := by
    cases ms with
    | none => exact ⟨[], .inr ⟨(stands_null _).1 hm, rfl⟩, rfl⟩
    | some ms =>
      obtain ⟨a, rfl, h1, h2⟩ := (stands_list ..).1 hm
      exact ⟨a, .inl rfl, by rw [contents_texts h1 h2, texts_map_str]; rfl⟩
  have hr' : ∃ r', (vr = .map r' ∨ vr = .nil ∧ r' = []) ∧ entries r' = entries (r.getD []) := by
    cases r with
    | none => exact ⟨[], .inr ⟨(stands_null _).1 hr, rfl⟩, rfl⟩
    | some r =>
      obtain ⟨a, rfl, h1, h2⟩ := (stands_dict ..).1 hr
      exact ⟨a, .inl rfl, h1⟩
  obtain ⟨ls, hls, ht⟩ := hm'
  obtain ⟨r', hr1, hr2⟩ := hr'
  refine ⟨.hello realm authID (some (ms.getD [])) (some x') (some r'), ?_, ?_⟩
  · simp only [Msg.marshal, filled, Val.ofMap, orEmpty, contents, content, entries, Option.getD_some, hx, hr2]
  · rcases hls with rfl | ⟨rfl, rfl⟩ <;> rcases hr1 with rfl | ⟨rfl, rfl⟩
    all_goals
      simp only [shape, text?, Val.asStr?, dict?, Val.asMap?, Option.bind_eq_bind, Option.bind_some]
      first
      | (have e : subList (some [(str "authextra", .map x'), (str "authid", .str authID), (str "authmethods", .arr ls), (str "roles", .map r')])
            (str "authmethods") = ls := rfl
         rw [e, ht]; rfl)
      | (have e : subList (some [(str "authextra", .map x'), (str "authid", .str authID), (str "authmethods", .arr ls), (str "roles", .nil)])
            (str "authmethods") = ls := rfl
         rw [e, ht]; rfl)
      | (have e : subList (some [(str "authextra", .map x'), (str "authid", .str authID), (str "authmethods", .nil), (str "roles", .map r')])
            (str "authmethods") = [] := rfl
         rw [e, ht]; rfl)
      | (have e : subList (some [(str "authextra", .map x'), (str "authid", .str authID), (str "authmethods", .nil), (str "roles", .nil)])
            (str "authmethods") = [] := rfl
         rw [e, ht]; rfl)

/-- Whatever Go types a decoder chooses for the content of a message: if it does not choose `int16` for an identifier, the list is
accepted and the message has this content; otherwise it is not. -/
theorem shape_stands (m : Msg) (ht : Transmissible m) (hid : ∀ n ∈ ids m, n < 2 ^ 64) (l : List Val) (h : StandsL l (contents m.marshal)) :
    ∃ m', contents m'.marshal = contents (filled m).marshal ∧ shape m.kind l = if l.tail.any isI16 then none else some m' := by
  cases m with
  | hello realm authID ms x r => exact hello_stands realm authID ms x r l h
  | welcome s d =>
    rcases d with _ | d
    · exact absurd rfl ht
    simp only [ids, List.mem_cons, List.not_mem_nil, or_false, forall_eq_or_imp, forall_eq] at hid
    simp only [Msg.marshal, marshalTail, marshalTailAbort, Val.ofMap, orEmpty, contents, content, List.cons_append, List.nil_append, List.append_nil, standsL_cons, standsL_nil, stands_text, stands_list, stands_dict] at h
    obtain ⟨t, _, rfl, ht0, i1, _, rfl, hi1, _, _, rfl, ⟨d2, rfl, hd2, _⟩, rfl⟩ := h
    refine ⟨.welcome s (some d2), by simp only [Msg.marshal, marshalTail, marshalTailAbort, Val.ofMap, orEmpty, filled, contents, content, List.cons_append, List.nil_append, List.append_nil, Option.getD_some, hd2], ?_⟩
    simp only [Msg.kind, shape, text?, dict?, list?, id?, Val.asStr?, Val.asMap?, Val.asSlice?, Option.bind_eq_bind, Option.bind_some, Option.pure_def, List.tail_cons, List.any_cons, List.any_nil, Bool.or_false, Bool.false_or, Option.bind_none, stands_id hi1 hid]
    cases isI16 i1 <;> rfl
  | abort d r a k =>
    rcases d with _ | d
    · exact absurd rfl ht.1
    rcases a with _ | a <;> rcases k with _ | k
    · simp only [Msg.marshal, marshalTail, marshalTailAbort, Val.ofMap, orEmpty, contents, content, List.cons_append, List.nil_append, List.append_nil, standsL_cons, standsL_nil, stands_text, stands_list, stands_dict] at h
      obtain ⟨t, _, rfl, ht0, _, _, rfl, ⟨d1, rfl, hd1, _⟩, _, _, rfl, rfl, rfl⟩ := h
      refine ⟨.abort (some d1) r none none, by simp only [Msg.marshal, marshalTail, marshalTailAbort, Val.ofMap, orEmpty, filled, contents, content, List.cons_append, List.nil_append, List.append_nil, Option.getD_some, hd1], ?_⟩
      simp only [Msg.kind, shape, text?, dict?, list?, id?, Val.asStr?, Val.asMap?, Val.asSlice?, Option.bind_eq_bind, Option.bind_some, Option.pure_def, List.tail_cons, List.any_cons, List.any_nil, Bool.or_false, Bool.false_or, Option.bind_none]
      rfl
    · exact absurd rfl (ht.2 (by simp))
    · simp only [Msg.marshal, marshalTail, marshalTailAbort, Val.ofMap, orEmpty, contents, content, List.cons_append, List.nil_append, List.append_nil, standsL_cons, standsL_nil, stands_text, stands_list, stands_dict] at h
      obtain ⟨t, _, rfl, ht0, _, _, rfl, ⟨d1, rfl, hd1, _⟩, _, _, rfl, rfl, _, _, rfl, ⟨a3, rfl, ha3, _⟩, rfl⟩ := h
      refine ⟨.abort (some d1) r (some a3) none, by simp only [Msg.marshal, marshalTail, marshalTailAbort, Val.ofMap, orEmpty, filled, contents, content, List.cons_append, List.nil_append, List.append_nil, Option.getD_some, hd1, ha3], ?_⟩
      simp only [Msg.kind, shape, text?, dict?, list?, id?, Val.asStr?, Val.asMap?, Val.asSlice?, Option.bind_eq_bind, Option.bind_some, Option.pure_def, List.tail_cons, List.any_cons, List.any_nil, Bool.or_false, Bool.false_or, Option.bind_none]
      rfl
    · simp only [Msg.marshal, marshalTail, marshalTailAbort, Val.ofMap, orEmpty, contents, content, List.cons_append, List.nil_append, List.append_nil, standsL_cons, standsL_nil, stands_text, stands_list, stands_dict] at h
      obtain ⟨t, _, rfl, ht0, _, _, rfl, ⟨d1, rfl, hd1, _⟩, _, _, rfl, rfl, _, _, rfl, ⟨a3, rfl, ha3, _⟩, _, _, rfl, ⟨d4, rfl, hd4, _⟩, rfl⟩ := h
      refine ⟨.abort (some d1) r (some a3) (some d4), by simp only [Msg.marshal, marshalTail, marshalTailAbort, Val.ofMap, orEmpty, filled, contents, content, List.cons_append, List.nil_append, List.append_nil, Option.getD_some, hd1, ha3, hd4], ?_⟩
      simp only [Msg.kind, shape, text?, dict?, list?, id?, Val.asStr?, Val.asMap?, Val.asSlice?, Option.bind_eq_bind, Option.bind_some, Option.pure_def, List.tail_cons, List.any_cons, List.any_nil, Bool.or_false, Bool.false_or, Option.bind_none]
      rfl
  | challenge s d =>
    rcases d with _ | d
    · exact absurd rfl ht
    simp only [Msg.marshal, marshalTail, marshalTailAbort, Val.ofMap, orEmpty, contents, content, List.cons_append, List.nil_append, List.append_nil, standsL_cons, standsL_nil, stands_text, stands_list, stands_dict] at h
    obtain ⟨t, _, rfl, ht0, _, _, rfl, rfl, _, _, rfl, ⟨d2, rfl, hd2, _⟩, rfl⟩ := h
    refine ⟨.challenge s (some d2), by simp only [Msg.marshal, marshalTail, marshalTailAbort, Val.ofMap, orEmpty, filled, contents, content, List.cons_append, List.nil_append, List.append_nil, Option.getD_some, hd2], ?_⟩
    simp only [Msg.kind, shape, text?, dict?, list?, id?, Val.asStr?, Val.asMap?, Val.asSlice?, Option.bind_eq_bind, Option.bind_some, Option.pure_def, List.tail_cons, List.any_cons, List.any_nil, Bool.or_false, Bool.false_or, Option.bind_none]
    rfl
  | authenticate s d =>
    simp only [Msg.marshal, marshalTail, marshalTailAbort, Val.ofMap, orEmpty, contents, content, List.cons_append, List.nil_append, List.append_nil, standsL_cons, standsL_nil, stands_text, stands_list, stands_dict] at h
    obtain ⟨t, _, rfl, ht0, _, _, rfl, rfl, _, _, rfl, ⟨d2, rfl, hd2, _⟩, rfl⟩ := h
    refine ⟨.authenticate s (some d2), by simp only [Msg.marshal, marshalTail, marshalTailAbort, Val.ofMap, orEmpty, filled, contents, content, List.cons_append, List.nil_append, List.append_nil, Option.getD_some, hd2], ?_⟩
    simp only [Msg.kind, shape, text?, dict?, list?, id?, Val.asStr?, Val.asMap?, Val.asSlice?, Option.bind_eq_bind, Option.bind_some, Option.pure_def, List.tail_cons, List.any_cons, List.any_nil, Bool.or_false, Bool.false_or, Option.bind_none]
    rfl
  | goodbye d s =>
    rcases d with _ | d
    · exact absurd rfl ht
    simp only [Msg.marshal, marshalTail, marshalTailAbort, Val.ofMap, orEmpty, contents, content, List.cons_append, List.nil_append, List.append_nil, standsL_cons, standsL_nil, stands_text, stands_list, stands_dict] at h
    obtain ⟨t, _, rfl, ht0, _, _, rfl, ⟨d1, rfl, hd1, _⟩, _, _, rfl, rfl, rfl⟩ := h
    refine ⟨.goodbye (some d1) s, by simp only [Msg.marshal, marshalTail, marshalTailAbort, Val.ofMap, orEmpty, filled, contents, content, List.cons_append, List.nil_append, List.append_nil, Option.getD_some, hd1], ?_⟩
    simp only [Msg.kind, shape, text?, dict?, list?, id?, Val.asStr?, Val.asMap?, Val.asSlice?, Option.bind_eq_bind, Option.bind_some, Option.pure_def, List.tail_cons, List.any_cons, List.any_nil, Bool.or_false, Bool.false_or, Option.bind_none]
    rfl
  | error mt r d u a k =>
    rcases d with _ | d
    · exact absurd rfl ht
    simp only [ids, List.mem_cons, List.not_mem_nil, or_false, forall_eq_or_imp, forall_eq] at hid
    rcases a with _ | a <;> rcases k with _ | k
    · simp only [Msg.marshal, marshalTail, marshalTailAbort, Val.ofMap, orEmpty, contents, content, List.cons_append, List.nil_append, List.append_nil, standsL_cons, standsL_nil, stands_text, stands_list, stands_dict] at h
      obtain ⟨t, _, rfl, ht0, i1, _, rfl, hi1, i2, _, rfl, hi2, _, _, rfl, ⟨d3, rfl, hd3, _⟩, _, _, rfl, rfl, rfl⟩ := h
      refine ⟨.error mt r (some d3) u none none, by simp only [Msg.marshal, marshalTail, marshalTailAbort, Val.ofMap, orEmpty, filled, contents, content, List.cons_append, List.nil_append, List.append_nil, Option.getD_some, hd3], ?_⟩
      simp only [Msg.kind, shape, text?, dict?, list?, id?, Val.asStr?, Val.asMap?, Val.asSlice?, Option.bind_eq_bind, Option.bind_some, Option.pure_def, List.tail_cons, List.any_cons, List.any_nil, Bool.or_false, Bool.false_or, Option.bind_none, stands_id hi1 hid.1, stands_id hi2 hid.2]
      cases isI16 i1 <;> cases isI16 i2 <;> rfl
    · simp only [Msg.marshal, marshalTail, marshalTailAbort, Val.ofMap, orEmpty, contents, content, List.cons_append, List.nil_append, List.append_nil, standsL_cons, standsL_nil, stands_text, stands_list, stands_dict] at h
      obtain ⟨t, _, rfl, ht0, i1, _, rfl, hi1, i2, _, rfl, hi2, _, _, rfl, ⟨d3, rfl, hd3, _⟩, _, _, rfl, rfl, _, _, rfl, ⟨a5, rfl, ha5, _⟩, _, _, rfl, ⟨d6, rfl, hd6, _⟩, rfl⟩ := h
      refine ⟨.error mt r (some d3) u (some a5) (some d6), by simp only [Msg.marshal, marshalTail, marshalTailAbort, Val.ofMap, orEmpty, filled, contents, content, List.cons_append, List.nil_append, List.append_nil, Option.getD_some, hd3, ha5, hd6], ?_⟩
      simp only [Msg.kind, shape, text?, dict?, list?, id?, Val.asStr?, Val.asMap?, Val.asSlice?, Option.bind_eq_bind, Option.bind_some, Option.pure_def, List.tail_cons, List.any_cons, List.any_nil, Bool.or_false, Bool.false_or, Option.bind_none, stands_id hi1 hid.1, stands_id hi2 hid.2]
      cases isI16 i1 <;> cases isI16 i2 <;> rfl
    · simp only [Msg.marshal, marshalTail, marshalTailAbort, Val.ofMap, orEmpty, contents, content, List.cons_append, List.nil_append, List.append_nil, standsL_cons, standsL_nil, stands_text, stands_list, stands_dict] at h
      obtain ⟨t, _, rfl, ht0, i1, _, rfl, hi1, i2, _, rfl, hi2, _, _, rfl, ⟨d3, rfl, hd3, _⟩, _, _, rfl, rfl, _, _, rfl, ⟨a5, rfl, ha5, _⟩, rfl⟩ := h
      refine ⟨.error mt r (some d3) u (some a5) none, by simp only [Msg.marshal, marshalTail, marshalTailAbort, Val.ofMap, orEmpty, filled, contents, content, List.cons_append, List.nil_append, List.append_nil, Option.getD_some, hd3, ha5], ?_⟩
      simp only [Msg.kind, shape, text?, dict?, list?, id?, Val.asStr?, Val.asMap?, Val.asSlice?, Option.bind_eq_bind, Option.bind_some, Option.pure_def, List.tail_cons, List.any_cons, List.any_nil, Bool.or_false, Bool.false_or, Option.bind_none, stands_id hi1 hid.1, stands_id hi2 hid.2]
      cases isI16 i1 <;> cases isI16 i2 <;> rfl
    · simp only [Msg.marshal, marshalTail, marshalTailAbort, Val.ofMap, orEmpty, contents, content, List.cons_append, List.nil_append, List.append_nil, standsL_cons, standsL_nil, stands_text, stands_list, stands_dict] at h
      obtain ⟨t, _, rfl, ht0, i1, _, rfl, hi1, i2, _, rfl, hi2, _, _, rfl, ⟨d3, rfl, hd3, _⟩, _, _, rfl, rfl, _, _, rfl, ⟨a5, rfl, ha5, _⟩, _, _, rfl, ⟨d6, rfl, hd6, _⟩, rfl⟩ := h
      refine ⟨.error mt r (some d3) u (some a5) (some d6), by simp only [Msg.marshal, marshalTail, marshalTailAbort, Val.ofMap, orEmpty, filled, contents, content, List.cons_append, List.nil_append, List.append_nil, Option.getD_some, hd3, ha5, hd6], ?_⟩
      simp only [Msg.kind, shape, text?, dict?, list?, id?, Val.asStr?, Val.asMap?, Val.asSlice?, Option.bind_eq_bind, Option.bind_some, Option.pure_def, List.tail_cons, List.any_cons, List.any_nil, Bool.or_false, Bool.false_or, Option.bind_none, stands_id hi1 hid.1, stands_id hi2 hid.2]
      cases isI16 i1 <;> cases isI16 i2 <;> rfl
  | publish r d u a k =>
    rcases d with _ | d
    · exact absurd rfl ht
    simp only [ids, List.mem_cons, List.not_mem_nil, or_false, forall_eq_or_imp, forall_eq] at hid
    rcases a with _ | a <;> rcases k with _ | k
    · simp only [Msg.marshal, marshalTail, marshalTailAbort, Val.ofMap, orEmpty, contents, content, List.cons_append, List.nil_append, List.append_nil, standsL_cons, standsL_nil, stands_text, stands_list, stands_dict] at h
      obtain ⟨t, _, rfl, ht0, i1, _, rfl, hi1, _, _, rfl, ⟨d2, rfl, hd2, _⟩, _, _, rfl, rfl, rfl⟩ := h
      refine ⟨.publish r (some d2) u none none, by simp only [Msg.marshal, marshalTail, marshalTailAbort, Val.ofMap, orEmpty, filled, contents, content, List.cons_append, List.nil_append, List.append_nil, Option.getD_some, hd2], ?_⟩
      simp only [Msg.kind, shape, text?, dict?, list?, id?, Val.asStr?, Val.asMap?, Val.asSlice?, Option.bind_eq_bind, Option.bind_some, Option.pure_def, List.tail_cons, List.any_cons, List.any_nil, Bool.or_false, Bool.false_or, Option.bind_none, stands_id hi1 hid]
      cases isI16 i1 <;> rfl
    · simp only [Msg.marshal, marshalTail, marshalTailAbort, Val.ofMap, orEmpty, contents, content, List.cons_append, List.nil_append, List.append_nil, standsL_cons, standsL_nil, stands_text, stands_list, stands_dict] at h
      obtain ⟨t, _, rfl, ht0, i1, _, rfl, hi1, _, _, rfl, ⟨d2, rfl, hd2, _⟩, _, _, rfl, rfl, _, _, rfl, ⟨a4, rfl, ha4, _⟩, _, _, rfl, ⟨d5, rfl, hd5, _⟩, rfl⟩ := h
      refine ⟨.publish r (some d2) u (some a4) (some d5), by simp only [Msg.marshal, marshalTail, marshalTailAbort, Val.ofMap, orEmpty, filled, contents, content, List.cons_append, List.nil_append, List.append_nil, Option.getD_some, hd2, ha4, hd5], ?_⟩
      simp only [Msg.kind, shape, text?, dict?, list?, id?, Val.asStr?, Val.asMap?, Val.asSlice?, Option.bind_eq_bind, Option.bind_some, Option.pure_def, List.tail_cons, List.any_cons, List.any_nil, Bool.or_false, Bool.false_or, Option.bind_none, stands_id hi1 hid]
      cases isI16 i1 <;> rfl
    · simp only [Msg.marshal, marshalTail, marshalTailAbort, Val.ofMap, orEmpty, contents, content, List.cons_append, List.nil_append, List.append_nil, standsL_cons, standsL_nil, stands_text, stands_list, stands_dict] at h
      obtain ⟨t, _, rfl, ht0, i1, _, rfl, hi1, _, _, rfl, ⟨d2, rfl, hd2, _⟩, _, _, rfl, rfl, _, _, rfl, ⟨a4, rfl, ha4, _⟩, rfl⟩ := h
      refine ⟨.publish r (some d2) u (some a4) none, by simp only [Msg.marshal, marshalTail, marshalTailAbort, Val.ofMap, orEmpty, filled, contents, content, List.cons_append, List.nil_append, List.append_nil, Option.getD_some, hd2, ha4], ?_⟩
      simp only [Msg.kind, shape, text?, dict?, list?, id?, Val.asStr?, Val.asMap?, Val.asSlice?, Option.bind_eq_bind, Option.bind_some, Option.pure_def, List.tail_cons, List.any_cons, List.any_nil, Bool.or_false, Bool.false_or, Option.bind_none, stands_id hi1 hid]
      cases isI16 i1 <;> rfl
    · simp only [Msg.marshal, marshalTail, marshalTailAbort, Val.ofMap, orEmpty, contents, content, List.cons_append, List.nil_append, List.append_nil, standsL_cons, standsL_nil, stands_text, stands_list, stands_dict] at h
      obtain ⟨t, _, rfl, ht0, i1, _, rfl, hi1, _, _, rfl, ⟨d2, rfl, hd2, _⟩, _, _, rfl, rfl, _, _, rfl, ⟨a4, rfl, ha4, _⟩, _, _, rfl, ⟨d5, rfl, hd5, _⟩, rfl⟩ := h
      refine ⟨.publish r (some d2) u (some a4) (some d5), by simp only [Msg.marshal, marshalTail, marshalTailAbort, Val.ofMap, orEmpty, filled, contents, content, List.cons_append, List.nil_append, List.append_nil, Option.getD_some, hd2, ha4, hd5], ?_⟩
      simp only [Msg.kind, shape, text?, dict?, list?, id?, Val.asStr?, Val.asMap?, Val.asSlice?, Option.bind_eq_bind, Option.bind_some, Option.pure_def, List.tail_cons, List.any_cons, List.any_nil, Bool.or_false, Bool.false_or, Option.bind_none, stands_id hi1 hid]
      cases isI16 i1 <;> rfl
  | published r p =>
    simp only [ids, List.mem_cons, List.not_mem_nil, or_false, forall_eq_or_imp, forall_eq] at hid
    simp only [Msg.marshal, marshalTail, marshalTailAbort, Val.ofMap, orEmpty, contents, content, List.cons_append, List.nil_append, List.append_nil, standsL_cons, standsL_nil, stands_text, stands_list, stands_dict] at h
    obtain ⟨t, _, rfl, ht0, i1, _, rfl, hi1, i2, _, rfl, hi2, rfl⟩ := h
    refine ⟨.published r p, by simp only [Msg.marshal, marshalTail, marshalTailAbort, Val.ofMap, orEmpty, filled, contents, content, List.cons_append, List.nil_append, List.append_nil, Option.getD_some], ?_⟩
    simp only [Msg.kind, shape, text?, dict?, list?, id?, Val.asStr?, Val.asMap?, Val.asSlice?, Option.bind_eq_bind, Option.bind_some, Option.pure_def, List.tail_cons, List.any_cons, List.any_nil, Bool.or_false, Bool.false_or, Option.bind_none, stands_id hi1 hid.1, stands_id hi2 hid.2]
    cases isI16 i1 <;> cases isI16 i2 <;> rfl
  | subscribe r d u =>
    rcases d with _ | d
    · exact absurd rfl ht
    simp only [ids, List.mem_cons, List.not_mem_nil, or_false, forall_eq_or_imp, forall_eq] at hid
    simp only [Msg.marshal, marshalTail, marshalTailAbort, Val.ofMap, orEmpty, contents, content, List.cons_append, List.nil_append, List.append_nil, standsL_cons, standsL_nil, stands_text, stands_list, stands_dict] at h
    obtain ⟨t, _, rfl, ht0, i1, _, rfl, hi1, _, _, rfl, ⟨d2, rfl, hd2, _⟩, _, _, rfl, rfl, rfl⟩ := h
    refine ⟨.subscribe r (some d2) u, by simp only [Msg.marshal, marshalTail, marshalTailAbort, Val.ofMap, orEmpty, filled, contents, content, List.cons_append, List.nil_append, List.append_nil, Option.getD_some, hd2], ?_⟩
    simp only [Msg.kind, shape, text?, dict?, list?, id?, Val.asStr?, Val.asMap?, Val.asSlice?, Option.bind_eq_bind, Option.bind_some, Option.pure_def, List.tail_cons, List.any_cons, List.any_nil, Bool.or_false, Bool.false_or, Option.bind_none, stands_id hi1 hid]
    cases isI16 i1 <;> rfl
  | subscribed r p =>
    simp only [ids, List.mem_cons, List.not_mem_nil, or_false, forall_eq_or_imp, forall_eq] at hid
    simp only [Msg.marshal, marshalTail, marshalTailAbort, Val.ofMap, orEmpty, contents, content, List.cons_append, List.nil_append, List.append_nil, standsL_cons, standsL_nil, stands_text, stands_list, stands_dict] at h
    obtain ⟨t, _, rfl, ht0, i1, _, rfl, hi1, i2, _, rfl, hi2, rfl⟩ := h
    refine ⟨.subscribed r p, by simp only [Msg.marshal, marshalTail, marshalTailAbort, Val.ofMap, orEmpty, filled, contents, content, List.cons_append, List.nil_append, List.append_nil, Option.getD_some], ?_⟩
    simp only [Msg.kind, shape, text?, dict?, list?, id?, Val.asStr?, Val.asMap?, Val.asSlice?, Option.bind_eq_bind, Option.bind_some, Option.pure_def, List.tail_cons, List.any_cons, List.any_nil, Bool.or_false, Bool.false_or, Option.bind_none, stands_id hi1 hid.1, stands_id hi2 hid.2]
    cases isI16 i1 <;> cases isI16 i2 <;> rfl
  | unsubscribe r p =>
    simp only [ids, List.mem_cons, List.not_mem_nil, or_false, forall_eq_or_imp, forall_eq] at hid
    simp only [Msg.marshal, marshalTail, marshalTailAbort, Val.ofMap, orEmpty, contents, content, List.cons_append, List.nil_append, List.append_nil, standsL_cons, standsL_nil, stands_text, stands_list, stands_dict] at h
    obtain ⟨t, _, rfl, ht0, i1, _, rfl, hi1, i2, _, rfl, hi2, rfl⟩ := h
    refine ⟨.unsubscribe r p, by simp only [Msg.marshal, marshalTail, marshalTailAbort, Val.ofMap, orEmpty, filled, contents, content, List.cons_append, List.nil_append, List.append_nil, Option.getD_some], ?_⟩
    simp only [Msg.kind, shape, text?, dict?, list?, id?, Val.asStr?, Val.asMap?, Val.asSlice?, Option.bind_eq_bind, Option.bind_some, Option.pure_def, List.tail_cons, List.any_cons, List.any_nil, Bool.or_false, Bool.false_or, Option.bind_none, stands_id hi1 hid.1, stands_id hi2 hid.2]
    cases isI16 i1 <;> cases isI16 i2 <;> rfl
  | unsubscribed r =>
    simp only [ids, List.mem_cons, List.not_mem_nil, or_false, forall_eq_or_imp, forall_eq] at hid
    simp only [Msg.marshal, marshalTail, marshalTailAbort, Val.ofMap, orEmpty, contents, content, List.cons_append, List.nil_append, List.append_nil, standsL_cons, standsL_nil, stands_text, stands_list, stands_dict] at h
    obtain ⟨t, _, rfl, ht0, i1, _, rfl, hi1, rfl⟩ := h
    refine ⟨.unsubscribed r, by simp only [Msg.marshal, marshalTail, marshalTailAbort, Val.ofMap, orEmpty, filled, contents, content, List.cons_append, List.nil_append, List.append_nil, Option.getD_some], ?_⟩
    simp only [Msg.kind, shape, text?, dict?, list?, id?, Val.asStr?, Val.asMap?, Val.asSlice?, Option.bind_eq_bind, Option.bind_some, Option.pure_def, List.tail_cons, List.any_cons, List.any_nil, Bool.or_false, Bool.false_or, Option.bind_none, stands_id hi1 hid]
    cases isI16 i1 <;> rfl
  | event r p d a k =>
    rcases d with _ | d
    · exact absurd rfl ht
    simp only [ids, List.mem_cons, List.not_mem_nil, or_false, forall_eq_or_imp, forall_eq] at hid
    rcases a with _ | a <;> rcases k with _ | k
    · simp only [Msg.marshal, marshalTail, marshalTailAbort, Val.ofMap, orEmpty, contents, content, List.cons_append, List.nil_append, List.append_nil, standsL_cons, standsL_nil, stands_text, stands_list, stands_dict] at h
      obtain ⟨t, _, rfl, ht0, i1, _, rfl, hi1, i2, _, rfl, hi2, _, _, rfl, ⟨d3, rfl, hd3, _⟩, rfl⟩ := h
      refine ⟨.event r p (some d3) none none, by simp only [Msg.marshal, marshalTail, marshalTailAbort, Val.ofMap, orEmpty, filled, contents, content, List.cons_append, List.nil_append, List.append_nil, Option.getD_some, hd3], ?_⟩
      simp only [Msg.kind, shape, text?, dict?, list?, id?, Val.asStr?, Val.asMap?, Val.asSlice?, Option.bind_eq_bind, Option.bind_some, Option.pure_def, List.tail_cons, List.any_cons, List.any_nil, Bool.or_false, Bool.false_or, Option.bind_none, stands_id hi1 hid.1, stands_id hi2 hid.2]
      cases isI16 i1 <;> cases isI16 i2 <;> rfl
    · simp only [Msg.marshal, marshalTail, marshalTailAbort, Val.ofMap, orEmpty, contents, content, List.cons_append, List.nil_append, List.append_nil, standsL_cons, standsL_nil, stands_text, stands_list, stands_dict] at h
      obtain ⟨t, _, rfl, ht0, i1, _, rfl, hi1, i2, _, rfl, hi2, _, _, rfl, ⟨d3, rfl, hd3, _⟩, _, _, rfl, ⟨a4, rfl, ha4, _⟩, _, _, rfl, ⟨d5, rfl, hd5, _⟩, rfl⟩ := h
      refine ⟨.event r p (some d3) (some a4) (some d5), by simp only [Msg.marshal, marshalTail, marshalTailAbort, Val.ofMap, orEmpty, filled, contents, content, List.cons_append, List.nil_append, List.append_nil, Option.getD_some, hd3, ha4, hd5], ?_⟩
      simp only [Msg.kind, shape, text?, dict?, list?, id?, Val.asStr?, Val.asMap?, Val.asSlice?, Option.bind_eq_bind, Option.bind_some, Option.pure_def, List.tail_cons, List.any_cons, List.any_nil, Bool.or_false, Bool.false_or, Option.bind_none, stands_id hi1 hid.1, stands_id hi2 hid.2]
      cases isI16 i1 <;> cases isI16 i2 <;> rfl
    · simp only [Msg.marshal, marshalTail, marshalTailAbort, Val.ofMap, orEmpty, contents, content, List.cons_append, List.nil_append, List.append_nil, standsL_cons, standsL_nil, stands_text, stands_list, stands_dict] at h
      obtain ⟨t, _, rfl, ht0, i1, _, rfl, hi1, i2, _, rfl, hi2, _, _, rfl, ⟨d3, rfl, hd3, _⟩, _, _, rfl, ⟨a4, rfl, ha4, _⟩, rfl⟩ := h
      refine ⟨.event r p (some d3) (some a4) none, by simp only [Msg.marshal, marshalTail, marshalTailAbort, Val.ofMap, orEmpty, filled, contents, content, List.cons_append, List.nil_append, List.append_nil, Option.getD_some, hd3, ha4], ?_⟩
      simp only [Msg.kind, shape, text?, dict?, list?, id?, Val.asStr?, Val.asMap?, Val.asSlice?, Option.bind_eq_bind, Option.bind_some, Option.pure_def, List.tail_cons, List.any_cons, List.any_nil, Bool.or_false, Bool.false_or, Option.bind_none, stands_id hi1 hid.1, stands_id hi2 hid.2]
      cases isI16 i1 <;> cases isI16 i2 <;> rfl
    · simp only [Msg.marshal, marshalTail, marshalTailAbort, Val.ofMap, orEmpty, contents, content, List.cons_append, List.nil_append, List.append_nil, standsL_cons, standsL_nil, stands_text, stands_list, stands_dict] at h
      obtain ⟨t, _, rfl, ht0, i1, _, rfl, hi1, i2, _, rfl, hi2, _, _, rfl, ⟨d3, rfl, hd3, _⟩, _, _, rfl, ⟨a4, rfl, ha4, _⟩, _, _, rfl, ⟨d5, rfl, hd5, _⟩, rfl⟩ := h
      refine ⟨.event r p (some d3) (some a4) (some d5), by simp only [Msg.marshal, marshalTail, marshalTailAbort, Val.ofMap, orEmpty, filled, contents, content, List.cons_append, List.nil_append, List.append_nil, Option.getD_some, hd3, ha4, hd5], ?_⟩
      simp only [Msg.kind, shape, text?, dict?, list?, id?, Val.asStr?, Val.asMap?, Val.asSlice?, Option.bind_eq_bind, Option.bind_some, Option.pure_def, List.tail_cons, List.any_cons, List.any_nil, Bool.or_false, Bool.false_or, Option.bind_none, stands_id hi1 hid.1, stands_id hi2 hid.2]
      cases isI16 i1 <;> cases isI16 i2 <;> rfl
  | call r d u a k b =>
    rcases d with _ | d
    · exact absurd rfl ht.1
    obtain rfl := ht.2
    simp only [ids, List.mem_cons, List.not_mem_nil, or_false, forall_eq_or_imp, forall_eq] at hid
    rcases a with _ | a <;> rcases k with _ | k
    · simp only [Msg.marshal, marshalTail, marshalTailAbort, Val.ofMap, orEmpty, contents, content, List.cons_append, List.nil_append, List.append_nil, standsL_cons, standsL_nil, stands_text, stands_list, stands_dict] at h
      obtain ⟨t, _, rfl, ht0, i1, _, rfl, hi1, _, _, rfl, ⟨d2, rfl, hd2, _⟩, _, _, rfl, rfl, rfl⟩ := h
      refine ⟨.call r (some d2) u none none Bin.none, by simp only [Msg.marshal, marshalTail, marshalTailAbort, Val.ofMap, orEmpty, filled, contents, content, List.cons_append, List.nil_append, List.append_nil, Option.getD_some, hd2], ?_⟩
      simp only [Msg.kind, shape, text?, dict?, list?, id?, Val.asStr?, Val.asMap?, Val.asSlice?, Option.bind_eq_bind, Option.bind_some, Option.pure_def, List.tail_cons, List.any_cons, List.any_nil, Bool.or_false, Bool.false_or, Option.bind_none, stands_id hi1 hid]
      cases isI16 i1 <;> rfl
    · simp only [Msg.marshal, marshalTail, marshalTailAbort, Val.ofMap, orEmpty, contents, content, List.cons_append, List.nil_append, List.append_nil, standsL_cons, standsL_nil, stands_text, stands_list, stands_dict] at h
      obtain ⟨t, _, rfl, ht0, i1, _, rfl, hi1, _, _, rfl, ⟨d2, rfl, hd2, _⟩, _, _, rfl, rfl, _, _, rfl, ⟨a4, rfl, ha4, _⟩, _, _, rfl, ⟨d5, rfl, hd5, _⟩, rfl⟩ := h
      refine ⟨.call r (some d2) u (some a4) (some d5) Bin.none, by simp only [Msg.marshal, marshalTail, marshalTailAbort, Val.ofMap, orEmpty, filled, contents, content, List.cons_append, List.nil_append, List.append_nil, Option.getD_some, hd2, ha4, hd5], ?_⟩
      simp only [Msg.kind, shape, text?, dict?, list?, id?, Val.asStr?, Val.asMap?, Val.asSlice?, Option.bind_eq_bind, Option.bind_some, Option.pure_def, List.tail_cons, List.any_cons, List.any_nil, Bool.or_false, Bool.false_or, Option.bind_none, stands_id hi1 hid]
      cases isI16 i1 <;> rfl
    · simp only [Msg.marshal, marshalTail, marshalTailAbort, Val.ofMap, orEmpty, contents, content, List.cons_append, List.nil_append, List.append_nil, standsL_cons, standsL_nil, stands_text, stands_list, stands_dict] at h
      obtain ⟨t, _, rfl, ht0, i1, _, rfl, hi1, _, _, rfl, ⟨d2, rfl, hd2, _⟩, _, _, rfl, rfl, _, _, rfl, ⟨a4, rfl, ha4, _⟩, rfl⟩ := h
      refine ⟨.call r (some d2) u (some a4) none Bin.none, by simp only [Msg.marshal, marshalTail, marshalTailAbort, Val.ofMap, orEmpty, filled, contents, content, List.cons_append, List.nil_append, List.append_nil, Option.getD_some, hd2, ha4], ?_⟩
      simp only [Msg.kind, shape, text?, dict?, list?, id?, Val.asStr?, Val.asMap?, Val.asSlice?, Option.bind_eq_bind, Option.bind_some, Option.pure_def, List.tail_cons, List.any_cons, List.any_nil, Bool.or_false, Bool.false_or, Option.bind_none, stands_id hi1 hid]
      cases isI16 i1 <;> rfl
    · simp only [Msg.marshal, marshalTail, marshalTailAbort, Val.ofMap, orEmpty, contents, content, List.cons_append, List.nil_append, List.append_nil, standsL_cons, standsL_nil, stands_text, stands_list, stands_dict] at h
      obtain ⟨t, _, rfl, ht0, i1, _, rfl, hi1, _, _, rfl, ⟨d2, rfl, hd2, _⟩, _, _, rfl, rfl, _, _, rfl, ⟨a4, rfl, ha4, _⟩, _, _, rfl, ⟨d5, rfl, hd5, _⟩, rfl⟩ := h
      refine ⟨.call r (some d2) u (some a4) (some d5) Bin.none, by simp only [Msg.marshal, marshalTail, marshalTailAbort, Val.ofMap, orEmpty, filled, contents, content, List.cons_append, List.nil_append, List.append_nil, Option.getD_some, hd2, ha4, hd5], ?_⟩
      simp only [Msg.kind, shape, text?, dict?, list?, id?, Val.asStr?, Val.asMap?, Val.asSlice?, Option.bind_eq_bind, Option.bind_some, Option.pure_def, List.tail_cons, List.any_cons, List.any_nil, Bool.or_false, Bool.false_or, Option.bind_none, stands_id hi1 hid]
      cases isI16 i1 <;> rfl
  | cancel r d =>
    rcases d with _ | d
    · exact absurd rfl ht
    simp only [ids, List.mem_cons, List.not_mem_nil, or_false, forall_eq_or_imp, forall_eq] at hid
    simp only [Msg.marshal, marshalTail, marshalTailAbort, Val.ofMap, orEmpty, contents, content, List.cons_append, List.nil_append, List.append_nil, standsL_cons, standsL_nil, stands_text, stands_list, stands_dict] at h
    obtain ⟨t, _, rfl, ht0, i1, _, rfl, hi1, _, _, rfl, ⟨d2, rfl, hd2, _⟩, rfl⟩ := h
    refine ⟨.cancel r (some d2), by simp only [Msg.marshal, marshalTail, marshalTailAbort, Val.ofMap, orEmpty, filled, contents, content, List.cons_append, List.nil_append, List.append_nil, Option.getD_some, hd2], ?_⟩
    simp only [Msg.kind, shape, text?, dict?, list?, id?, Val.asStr?, Val.asMap?, Val.asSlice?, Option.bind_eq_bind, Option.bind_some, Option.pure_def, List.tail_cons, List.any_cons, List.any_nil, Bool.or_false, Bool.false_or, Option.bind_none, stands_id hi1 hid]
    cases isI16 i1 <;> rfl
  | result r d a k b =>
    rcases d with _ | d
    · exact absurd rfl ht.1
    obtain rfl := ht.2
    simp only [ids, List.mem_cons, List.not_mem_nil, or_false, forall_eq_or_imp, forall_eq] at hid
    rcases a with _ | a <;> rcases k with _ | k
    · simp only [Msg.marshal, marshalTail, marshalTailAbort, Val.ofMap, orEmpty, contents, content, List.cons_append, List.nil_append, List.append_nil, standsL_cons, standsL_nil, stands_text, stands_list, stands_dict] at h
      obtain ⟨t, _, rfl, ht0, i1, _, rfl, hi1, _, _, rfl, ⟨d2, rfl, hd2, _⟩, rfl⟩ := h
      refine ⟨.result r (some d2) none none Bin.none, by simp only [Msg.marshal, marshalTail, marshalTailAbort, Val.ofMap, orEmpty, filled, contents, content, List.cons_append, List.nil_append, List.append_nil, Option.getD_some, hd2], ?_⟩
      simp only [Msg.kind, shape, text?, dict?, list?, id?, Val.asStr?, Val.asMap?, Val.asSlice?, Option.bind_eq_bind, Option.bind_some, Option.pure_def, List.tail_cons, List.any_cons, List.any_nil, Bool.or_false, Bool.false_or, Option.bind_none, stands_id hi1 hid]
      cases isI16 i1 <;> rfl
    · simp only [Msg.marshal, marshalTail, marshalTailAbort, Val.ofMap, orEmpty, contents, content, List.cons_append, List.nil_append, List.append_nil, standsL_cons, standsL_nil, stands_text, stands_list, stands_dict] at h
      obtain ⟨t, _, rfl, ht0, i1, _, rfl, hi1, _, _, rfl, ⟨d2, rfl, hd2, _⟩, _, _, rfl, ⟨a3, rfl, ha3, _⟩, _, _, rfl, ⟨d4, rfl, hd4, _⟩, rfl⟩ := h
      refine ⟨.result r (some d2) (some a3) (some d4) Bin.none, by simp only [Msg.marshal, marshalTail, marshalTailAbort, Val.ofMap, orEmpty, filled, contents, content, List.cons_append, List.nil_append, List.append_nil, Option.getD_some, hd2, ha3, hd4], ?_⟩
      simp only [Msg.kind, shape, text?, dict?, list?, id?, Val.asStr?, Val.asMap?, Val.asSlice?, Option.bind_eq_bind, Option.bind_some, Option.pure_def, List.tail_cons, List.any_cons, List.any_nil, Bool.or_false, Bool.false_or, Option.bind_none, stands_id hi1 hid]
      cases isI16 i1 <;> rfl
    · simp only [Msg.marshal, marshalTail, marshalTailAbort, Val.ofMap, orEmpty, contents, content, List.cons_append, List.nil_append, List.append_nil, standsL_cons, standsL_nil, stands_text, stands_list, stands_dict] at h
      obtain ⟨t, _, rfl, ht0, i1, _, rfl, hi1, _, _, rfl, ⟨d2, rfl, hd2, _⟩, _, _, rfl, ⟨a3, rfl, ha3, _⟩, rfl⟩ := h
      refine ⟨.result r (some d2) (some a3) none Bin.none, by simp only [Msg.marshal, marshalTail, marshalTailAbort, Val.ofMap, orEmpty, filled, contents, content, List.cons_append, List.nil_append, List.append_nil, Option.getD_some, hd2, ha3], ?_⟩
      simp only [Msg.kind, shape, text?, dict?, list?, id?, Val.asStr?, Val.asMap?, Val.asSlice?, Option.bind_eq_bind, Option.bind_some, Option.pure_def, List.tail_cons, List.any_cons, List.any_nil, Bool.or_false, Bool.false_or, Option.bind_none, stands_id hi1 hid]
      cases isI16 i1 <;> rfl
    · simp only [Msg.marshal, marshalTail, marshalTailAbort, Val.ofMap, orEmpty, contents, content, List.cons_append, List.nil_append, List.append_nil, standsL_cons, standsL_nil, stands_text, stands_list, stands_dict] at h
      obtain ⟨t, _, rfl, ht0, i1, _, rfl, hi1, _, _, rfl, ⟨d2, rfl, hd2, _⟩, _, _, rfl, ⟨a3, rfl, ha3, _⟩, _, _, rfl, ⟨d4, rfl, hd4, _⟩, rfl⟩ := h
      refine ⟨.result r (some d2) (some a3) (some d4) Bin.none, by simp only [Msg.marshal, marshalTail, marshalTailAbort, Val.ofMap, orEmpty, filled, contents, content, List.cons_append, List.nil_append, List.append_nil, Option.getD_some, hd2, ha3, hd4], ?_⟩
      simp only [Msg.kind, shape, text?, dict?, list?, id?, Val.asStr?, Val.asMap?, Val.asSlice?, Option.bind_eq_bind, Option.bind_some, Option.pure_def, List.tail_cons, List.any_cons, List.any_nil, Bool.or_false, Bool.false_or, Option.bind_none, stands_id hi1 hid]
      cases isI16 i1 <;> rfl
  | register r d u =>
    rcases d with _ | d
    · exact absurd rfl ht
    simp only [ids, List.mem_cons, List.not_mem_nil, or_false, forall_eq_or_imp, forall_eq] at hid
    simp only [Msg.marshal, marshalTail, marshalTailAbort, Val.ofMap, orEmpty, contents, content, List.cons_append, List.nil_append, List.append_nil, standsL_cons, standsL_nil, stands_text, stands_list, stands_dict] at h
    obtain ⟨t, _, rfl, ht0, i1, _, rfl, hi1, _, _, rfl, ⟨d2, rfl, hd2, _⟩, _, _, rfl, rfl, rfl⟩ := h
    refine ⟨.register r (some d2) u, by simp only [Msg.marshal, marshalTail, marshalTailAbort, Val.ofMap, orEmpty, filled, contents, content, List.cons_append, List.nil_append, List.append_nil, Option.getD_some, hd2], ?_⟩
    simp only [Msg.kind, shape, text?, dict?, list?, id?, Val.asStr?, Val.asMap?, Val.asSlice?, Option.bind_eq_bind, Option.bind_some, Option.pure_def, List.tail_cons, List.any_cons, List.any_nil, Bool.or_false, Bool.false_or, Option.bind_none, stands_id hi1 hid]
    cases isI16 i1 <;> rfl
  | registered r p =>
    simp only [ids, List.mem_cons, List.not_mem_nil, or_false, forall_eq_or_imp, forall_eq] at hid
    simp only [Msg.marshal, marshalTail, marshalTailAbort, Val.ofMap, orEmpty, contents, content, List.cons_append, List.nil_append, List.append_nil, standsL_cons, standsL_nil, stands_text, stands_list, stands_dict] at h
    obtain ⟨t, _, rfl, ht0, i1, _, rfl, hi1, i2, _, rfl, hi2, rfl⟩ := h
    refine ⟨.registered r p, by simp only [Msg.marshal, marshalTail, marshalTailAbort, Val.ofMap, orEmpty, filled, contents, content, List.cons_append, List.nil_append, List.append_nil, Option.getD_some], ?_⟩
    simp only [Msg.kind, shape, text?, dict?, list?, id?, Val.asStr?, Val.asMap?, Val.asSlice?, Option.bind_eq_bind, Option.bind_some, Option.pure_def, List.tail_cons, List.any_cons, List.any_nil, Bool.or_false, Bool.false_or, Option.bind_none, stands_id hi1 hid.1, stands_id hi2 hid.2]
    cases isI16 i1 <;> cases isI16 i2 <;> rfl
  | unregister r p =>
    simp only [ids, List.mem_cons, List.not_mem_nil, or_false, forall_eq_or_imp, forall_eq] at hid
    simp only [Msg.marshal, marshalTail, marshalTailAbort, Val.ofMap, orEmpty, contents, content, List.cons_append, List.nil_append, List.append_nil, standsL_cons, standsL_nil, stands_text, stands_list, stands_dict] at h
    obtain ⟨t, _, rfl, ht0, i1, _, rfl, hi1, i2, _, rfl, hi2, rfl⟩ := h
    refine ⟨.unregister r p, by simp only [Msg.marshal, marshalTail, marshalTailAbort, Val.ofMap, orEmpty, filled, contents, content, List.cons_append, List.nil_append, List.append_nil, Option.getD_some], ?_⟩
    simp only [Msg.kind, shape, text?, dict?, list?, id?, Val.asStr?, Val.asMap?, Val.asSlice?, Option.bind_eq_bind, Option.bind_some, Option.pure_def, List.tail_cons, List.any_cons, List.any_nil, Bool.or_false, Bool.false_or, Option.bind_none, stands_id hi1 hid.1, stands_id hi2 hid.2]
    cases isI16 i1 <;> cases isI16 i2 <;> rfl
  | unregistered r =>
    simp only [ids, List.mem_cons, List.not_mem_nil, or_false, forall_eq_or_imp, forall_eq] at hid
    simp only [Msg.marshal, marshalTail, marshalTailAbort, Val.ofMap, orEmpty, contents, content, List.cons_append, List.nil_append, List.append_nil, standsL_cons, standsL_nil, stands_text, stands_list, stands_dict] at h
    obtain ⟨t, _, rfl, ht0, i1, _, rfl, hi1, rfl⟩ := h
    refine ⟨.unregistered r, by simp only [Msg.marshal, marshalTail, marshalTailAbort, Val.ofMap, orEmpty, filled, contents, content, List.cons_append, List.nil_append, List.append_nil, Option.getD_some], ?_⟩
    simp only [Msg.kind, shape, text?, dict?, list?, id?, Val.asStr?, Val.asMap?, Val.asSlice?, Option.bind_eq_bind, Option.bind_some, Option.pure_def, List.tail_cons, List.any_cons, List.any_nil, Bool.or_false, Bool.false_or, Option.bind_none, stands_id hi1 hid]
    cases isI16 i1 <;> rfl
  | invocation r p d a k b =>
    rcases d with _ | d
    · exact absurd rfl ht.1
    obtain rfl := ht.2
    simp only [ids, List.mem_cons, List.not_mem_nil, or_false, forall_eq_or_imp, forall_eq] at hid
    rcases a with _ | a <;> rcases k with _ | k
    · simp only [Msg.marshal, marshalTail, marshalTailAbort, Val.ofMap, orEmpty, contents, content, List.cons_append, List.nil_append, List.append_nil, standsL_cons, standsL_nil, stands_text, stands_list, stands_dict] at h
      obtain ⟨t, _, rfl, ht0, i1, _, rfl, hi1, i2, _, rfl, hi2, _, _, rfl, ⟨d3, rfl, hd3, _⟩, rfl⟩ := h
      refine ⟨.invocation r p (some d3) none none Bin.none, by simp only [Msg.marshal, marshalTail, marshalTailAbort, Val.ofMap, orEmpty, filled, contents, content, List.cons_append, List.nil_append, List.append_nil, Option.getD_some, hd3], ?_⟩
      simp only [Msg.kind, shape, text?, dict?, list?, id?, Val.asStr?, Val.asMap?, Val.asSlice?, Option.bind_eq_bind, Option.bind_some, Option.pure_def, List.tail_cons, List.any_cons, List.any_nil, Bool.or_false, Bool.false_or, Option.bind_none, stands_id hi1 hid.1, stands_id hi2 hid.2]
      cases isI16 i1 <;> cases isI16 i2 <;> rfl
    · simp only [Msg.marshal, marshalTail, marshalTailAbort, Val.ofMap, orEmpty, contents, content, List.cons_append, List.nil_append, List.append_nil, standsL_cons, standsL_nil, stands_text, stands_list, stands_dict] at h
      obtain ⟨t, _, rfl, ht0, i1, _, rfl, hi1, i2, _, rfl, hi2, _, _, rfl, ⟨d3, rfl, hd3, _⟩, _, _, rfl, ⟨a4, rfl, ha4, _⟩, _, _, rfl, ⟨d5, rfl, hd5, _⟩, rfl⟩ := h
      refine ⟨.invocation r p (some d3) (some a4) (some d5) Bin.none, by simp only [Msg.marshal, marshalTail, marshalTailAbort, Val.ofMap, orEmpty, filled, contents, content, List.cons_append, List.nil_append, List.append_nil, Option.getD_some, hd3, ha4, hd5], ?_⟩
      simp only [Msg.kind, shape, text?, dict?, list?, id?, Val.asStr?, Val.asMap?, Val.asSlice?, Option.bind_eq_bind, Option.bind_some, Option.pure_def, List.tail_cons, List.any_cons, List.any_nil, Bool.or_false, Bool.false_or, Option.bind_none, stands_id hi1 hid.1, stands_id hi2 hid.2]
      cases isI16 i1 <;> cases isI16 i2 <;> rfl
    · simp only [Msg.marshal, marshalTail, marshalTailAbort, Val.ofMap, orEmpty, contents, content, List.cons_append, List.nil_append, List.append_nil, standsL_cons, standsL_nil, stands_text, stands_list, stands_dict] at h
      obtain ⟨t, _, rfl, ht0, i1, _, rfl, hi1, i2, _, rfl, hi2, _, _, rfl, ⟨d3, rfl, hd3, _⟩, _, _, rfl, ⟨a4, rfl, ha4, _⟩, rfl⟩ := h
      refine ⟨.invocation r p (some d3) (some a4) none Bin.none, by simp only [Msg.marshal, marshalTail, marshalTailAbort, Val.ofMap, orEmpty, filled, contents, content, List.cons_append, List.nil_append, List.append_nil, Option.getD_some, hd3, ha4], ?_⟩
      simp only [Msg.kind, shape, text?, dict?, list?, id?, Val.asStr?, Val.asMap?, Val.asSlice?, Option.bind_eq_bind, Option.bind_some, Option.pure_def, List.tail_cons, List.any_cons, List.any_nil, Bool.or_false, Bool.false_or, Option.bind_none, stands_id hi1 hid.1, stands_id hi2 hid.2]
      cases isI16 i1 <;> cases isI16 i2 <;> rfl
    · simp only [Msg.marshal, marshalTail, marshalTailAbort, Val.ofMap, orEmpty, contents, content, List.cons_append, List.nil_append, List.append_nil, standsL_cons, standsL_nil, stands_text, stands_list, stands_dict] at h
      obtain ⟨t, _, rfl, ht0, i1, _, rfl, hi1, i2, _, rfl, hi2, _, _, rfl, ⟨d3, rfl, hd3, _⟩, _, _, rfl, ⟨a4, rfl, ha4, _⟩, _, _, rfl, ⟨d5, rfl, hd5, _⟩, rfl⟩ := h
      refine ⟨.invocation r p (some d3) (some a4) (some d5) Bin.none, by simp only [Msg.marshal, marshalTail, marshalTailAbort, Val.ofMap, orEmpty, filled, contents, content, List.cons_append, List.nil_append, List.append_nil, Option.getD_some, hd3, ha4, hd5], ?_⟩
      simp only [Msg.kind, shape, text?, dict?, list?, id?, Val.asStr?, Val.asMap?, Val.asSlice?, Option.bind_eq_bind, Option.bind_some, Option.pure_def, List.tail_cons, List.any_cons, List.any_nil, Bool.or_false, Bool.false_or, Option.bind_none, stands_id hi1 hid.1, stands_id hi2 hid.2]
      cases isI16 i1 <;> cases isI16 i2 <;> rfl
  | interrupt r d =>
    rcases d with _ | d
    · exact absurd rfl ht
    simp only [ids, List.mem_cons, List.not_mem_nil, or_false, forall_eq_or_imp, forall_eq] at hid
    simp only [Msg.marshal, marshalTail, marshalTailAbort, Val.ofMap, orEmpty, contents, content, List.cons_append, List.nil_append, List.append_nil, standsL_cons, standsL_nil, stands_text, stands_list, stands_dict] at h
    obtain ⟨t, _, rfl, ht0, i1, _, rfl, hi1, _, _, rfl, ⟨d2, rfl, hd2, _⟩, rfl⟩ := h
    refine ⟨.interrupt r (some d2), by simp only [Msg.marshal, marshalTail, marshalTailAbort, Val.ofMap, orEmpty, filled, contents, content, List.cons_append, List.nil_append, List.append_nil, Option.getD_some, hd2], ?_⟩
    simp only [Msg.kind, shape, text?, dict?, list?, id?, Val.asStr?, Val.asMap?, Val.asSlice?, Option.bind_eq_bind, Option.bind_some, Option.pure_def, List.tail_cons, List.any_cons, List.any_nil, Bool.or_false, Bool.false_or, Option.bind_none, stands_id hi1 hid]
    cases isI16 i1 <;> rfl
  | yield r d a k b =>
    rcases d with _ | d
    · exact absurd rfl ht.1
    obtain rfl := ht.2
    simp only [ids, List.mem_cons, List.not_mem_nil, or_false, forall_eq_or_imp, forall_eq] at hid
    rcases a with _ | a <;> rcases k with _ | k
    · simp only [Msg.marshal, marshalTail, marshalTailAbort, Val.ofMap, orEmpty, contents, content, List.cons_append, List.nil_append, List.append_nil, standsL_cons, standsL_nil, stands_text, stands_list, stands_dict] at h
      obtain ⟨t, _, rfl, ht0, i1, _, rfl, hi1, _, _, rfl, ⟨d2, rfl, hd2, _⟩, rfl⟩ := h
      refine ⟨.yield r (some d2) none none Bin.none, by simp only [Msg.marshal, marshalTail, marshalTailAbort, Val.ofMap, orEmpty, filled, contents, content, List.cons_append, List.nil_append, List.append_nil, Option.getD_some, hd2], ?_⟩
      simp only [Msg.kind, shape, text?, dict?, list?, id?, Val.asStr?, Val.asMap?, Val.asSlice?, Option.bind_eq_bind, Option.bind_some, Option.pure_def, List.tail_cons, List.any_cons, List.any_nil, Bool.or_false, Bool.false_or, Option.bind_none, stands_id hi1 hid]
      cases isI16 i1 <;> rfl
    · simp only [Msg.marshal, marshalTail, marshalTailAbort, Val.ofMap, orEmpty, contents, content, List.cons_append, List.nil_append, List.append_nil, standsL_cons, standsL_nil, stands_text, stands_list, stands_dict] at h
      obtain ⟨t, _, rfl, ht0, i1, _, rfl, hi1, _, _, rfl, ⟨d2, rfl, hd2, _⟩, _, _, rfl, ⟨a3, rfl, ha3, _⟩, _, _, rfl, ⟨d4, rfl, hd4, _⟩, rfl⟩ := h
      refine ⟨.yield r (some d2) (some a3) (some d4) Bin.none, by simp only [Msg.marshal, marshalTail, marshalTailAbort, Val.ofMap, orEmpty, filled, contents, content, List.cons_append, List.nil_append, List.append_nil, Option.getD_some, hd2, ha3, hd4], ?_⟩
      simp only [Msg.kind, shape, text?, dict?, list?, id?, Val.asStr?, Val.asMap?, Val.asSlice?, Option.bind_eq_bind, Option.bind_some, Option.pure_def, List.tail_cons, List.any_cons, List.any_nil, Bool.or_false, Bool.false_or, Option.bind_none, stands_id hi1 hid]
      cases isI16 i1 <;> rfl
    · simp only [Msg.marshal, marshalTail, marshalTailAbort, Val.ofMap, orEmpty, contents, content, List.cons_append, List.nil_append, List.append_nil, standsL_cons, standsL_nil, stands_text, stands_list, stands_dict] at h
      obtain ⟨t, _, rfl, ht0, i1, _, rfl, hi1, _, _, rfl, ⟨d2, rfl, hd2, _⟩, _, _, rfl, ⟨a3, rfl, ha3, _⟩, rfl⟩ := h
      refine ⟨.yield r (some d2) (some a3) none Bin.none, by simp only [Msg.marshal, marshalTail, marshalTailAbort, Val.ofMap, orEmpty, filled, contents, content, List.cons_append, List.nil_append, List.append_nil, Option.getD_some, hd2, ha3], ?_⟩
      simp only [Msg.kind, shape, text?, dict?, list?, id?, Val.asStr?, Val.asMap?, Val.asSlice?, Option.bind_eq_bind, Option.bind_some, Option.pure_def, List.tail_cons, List.any_cons, List.any_nil, Bool.or_false, Bool.false_or, Option.bind_none, stands_id hi1 hid]
      cases isI16 i1 <;> rfl
    · simp only [Msg.marshal, marshalTail, marshalTailAbort, Val.ofMap, orEmpty, contents, content, List.cons_append, List.nil_append, List.append_nil, standsL_cons, standsL_nil, stands_text, stands_list, stands_dict] at h
      obtain ⟨t, _, rfl, ht0, i1, _, rfl, hi1, _, _, rfl, ⟨d2, rfl, hd2, _⟩, _, _, rfl, ⟨a3, rfl, ha3, _⟩, _, _, rfl, ⟨d4, rfl, hd4, _⟩, rfl⟩ := h
      refine ⟨.yield r (some d2) (some a3) (some d4) Bin.none, by simp only [Msg.marshal, marshalTail, marshalTailAbort, Val.ofMap, orEmpty, filled, contents, content, List.cons_append, List.nil_append, List.append_nil, Option.getD_some, hd2, ha3, hd4], ?_⟩
      simp only [Msg.kind, shape, text?, dict?, list?, id?, Val.asStr?, Val.asMap?, Val.asSlice?, Option.bind_eq_bind, Option.bind_some, Option.pure_def, List.tail_cons, List.any_cons, List.any_nil, Bool.or_false, Bool.false_or, Option.bind_none, stands_id hi1 hid]
      cases isI16 i1 <;> rfl

/-- `Deserialize` on what a decoder made of the content of a message. -/
theorem deserialize_stands (c : Codec) (m : Msg) (ht : Transmissible m) (hid : ∀ n ∈ ids m, n < 2 ^ 64) (l : List Val)
    (h : StandsL l (contents m.marshal)) (b : Str) (hb : c.dec b = some l) :
    ∃ m', contents m'.marshal = contents (filled m).marshal ∧ c.deserialize b = if l.any isI16 then .err else .ok m' := by
  obtain ⟨m', h1, h2⟩ := shape_stands m ht hid l h
  refine ⟨m', h1, ?_⟩
  have hlen : l.length = m.marshal.length := by rw [h.length, contents_map, List.length_map]
  have hh := (C16_marshal_layout m).1
  cases hm : m.marshal with
  | nil => rw [hm] at hh; cases hh
  | cons v rest =>
    rw [hm] at hh h
    injection hh with hh
    subst hh
    rw [contents, standsL_cons] at h
    obtain ⟨t, r, rfl, h3, _⟩ := h
    have h4 := stands_id (n := m.type) h3 (by have := type_le m; omega)
    simp only [Codec.deserialize, hb, Res.ofOption, Res.bind_ok]
    rw [List.any_cons]
    rw [List.tail_cons] at h2
    cases hi : isI16 t with
    | true =>
      rw [((C13_dispatch t r).2 (by intro n k e; rw [h4, hi] at e; cases e))]
      rfl
    | false =>
      have h5 : asUInt64 t = some m.kind.code := by rw [h4, hi]; rfl
      rw [((C13_dispatch t r).1 _ _ h5 (kind_code_mem m.kind)).1]
      by_cases hr : r.any isI16 = true
      · rw [if_pos hr] at h2
        have hs : ¬ shortLogin m.kind (t :: r) := by
          rintro ⟨hk, h6⟩
          rw [hlen] at h6
          cases m <;> simp [Msg.kind, Msg.marshal] at hk h6
        rw [parse_eq _ _ hs, h2, hr]
        rfl
      · rw [if_neg hr] at h2
        have hp : parse m.kind (t :: r) = .ok m' := ((C11_parse_iff_layout _ _).1 _).2 h2
        rw [hp, Res.bind_ok, parse_kind hp, hp]
        simp [hr]

/-- The identifiers are part of the content. -/
theorem ids_mem (m : Msg) (n : Nat) (h : n ∈ ids m) : Data.int n ∈ contents m.marshal := by
  cases m <;> simp only [ids, List.mem_cons, List.not_mem_nil, or_false] at h <;>
    simp only [Msg.marshal, contents, content, List.cons_append, List.mem_cons, Data.int.injEq] <;> simp [h] <;> omega

theorem ids_within {count levels : Nat} {m : Msg} (h : Within count levels (.list (contents m.marshal))) (n : Nat) (hn : n ∈ ids m) : n < 2 ^ 64 := by
  have := within_int ((withinL_iff ..).1 h.2.2 _ (ids_mem m n hn))
  omega

mutual
theorem stands_cborVal (d : Data) : Stands (cborVal d) d := by
  cases d with
  | null => exact ⟨rfl, rfl⟩
  | bool b => exact ⟨rfl, rfl⟩
  | int v =>
    rw [cborVal]
    split
    · refine ⟨?_, rfl⟩
      rw [content]
      congr 1
      omega
    · exact ⟨rfl, rfl⟩
  | float f => exact ⟨rfl, rfl⟩
  | text s => exact ⟨rfl, rfl⟩
  | bytes s => exact ⟨rfl, rfl⟩
  | list l =>
    have := standsL_cborVals l
    exact ⟨by rw [cborVal, content, this.contents], by rw [cborVal, fresh, this.isFresh]⟩
  | dict d =>
    have := stands_cborEntries d
    exact ⟨by rw [cborVal, content, this.1], by rw [cborVal, fresh, this.2]⟩
theorem standsL_cborVals (l : List Data) : StandsL (cborVals l) l := by
  cases l with
  | nil => exact .nil
  | cons d l => exact .cons (stands_cborVal d) (standsL_cborVals l)
theorem stands_cborEntries (d : List (Str × Data)) : entries (cborEntries d) = d ∧ freshM (cborEntries d) = true := by
  cases d with
  | nil => exact ⟨rfl, rfl⟩
  | cons p d =>
    obtain ⟨k, x⟩ := p
    obtain ⟨h1, h2⟩ := stands_cborVal x
    obtain ⟨h3, h4⟩ := stands_cborEntries d
    exact ⟨by rw [cborEntries, entries, h1, h3], by rw [cborEntries, freshM, h2, h4]; rfl⟩
end

theorem cborVal_not_i16 (d : Data) : isI16 (cborVal d) = false := by
  cases d with
  | int v => rw [cborVal]; split <;> rfl
  | _ => rfl

/-! ### The elements of a MsgPack list -/

/-- Objects one after the other, taken apart. -/
theorem msgpack_split {ds : List Data} {a : Str} (h : Formats.MsgPack ds a) :
    ∃ ps : List (Data × Str), ps.map Prod.fst = ds ∧ a = ps.flatMap Prod.snd ∧ ∀ p ∈ ps, Formats.MsgPack [p.1] p.2 := by
  have one : ∀ (d : Data) (x : Str) {ds : List Data} {b : Str}, Formats.MsgPack [d] (x ++ []) →
      (∃ ps : List (Data × Str), ps.map Prod.fst = ds ∧ b = ps.flatMap Prod.snd ∧ ∀ p ∈ ps, Formats.MsgPack [p.1] p.2) →
      ∃ ps : List (Data × Str), ps.map Prod.fst = d :: ds ∧ x ++ b = ps.flatMap Prod.snd ∧ ∀ p ∈ ps, Formats.MsgPack [p.1] p.2 := by
    rintro d x ds b h1 ⟨ps, rfl, rfl, h2⟩
    rw [List.append_nil] at h1
    refine ⟨(d, x) :: ps, rfl, rfl, fun p hp => ?_⟩
    rcases List.mem_cons.1 hp with rfl | hp
    · exact h1
    · exact h2 p hp
  induction h with
  | done => exact ⟨[], rfl, rfl, by simp⟩
  | null _ ih => exact one _ [0xc0] (.null .done) ih
  | no _ ih => exact one _ [0xc2] (.no .done) ih
  | yes _ ih => exact one _ [0xc3] (.yes .done) ih
  | posfix hn _ ih => exact one _ [_] (.posfix hn .done) ih
  | negfix hn _ ih => exact one _ [_] (.negfix hn .done) ih
  | unsigned hc _ ih => exact one _ (_ :: _) (.unsigned hc .done) ih
  | signed hc _ ih => exact one _ (_ :: _) (.signed hc .done) ih
  | single hc _ ih => exact one _ (_ :: _) (.single hc .done) ih
  | double hc _ ih => exact one _ (_ :: _) (.double hc .done) ih
  | text hh _ ih => exact one _ (_ ++ _) (.text hh .done) ih
  | bytes hh _ ih => exact one _ (_ ++ _) (.bytes hh .done) ih
  | list hh hl _ _ ih => exact one _ _ (.list hh hl .done) ih
  | dict hh hp hl _ _ ih => exact one _ _ (.dict hh hp hl .done) ih

theorem len_ne {fix small : Nat} {codes : List (UInt8 × Nat)} {n : Nat} {h : Str} (hh : Len fix small codes n h) : h ≠ [] := by
  cases hh <;> simp

theorem msgpack_ne {ds : List Data} {a : Str} (h : Formats.MsgPack ds a) (hd : ds ≠ []) : a ≠ [] := by
  cases h with
  | done => exact absurd rfl hd
  | text hh _ => have := len_ne hh; simp [this]
  | bytes hh _ => have := len_ne hh; simp [this]
  | list hh _ _ => have := len_ne hh; simp [this]
  | dict hh _ _ _ => have := len_ne hh; simp [this]
  | _ => simp

theorem item_val_i16 {c : Nat} {v : Val} (h : MsgPack.item c = .val v) : isI16 v = (c == 0xd1) := by
  unfold MsgPack.item at h
  repeat' split at h
  all_goals first | (cases h; done) | (injection h with h; subst h; simp only [isI16]; symm; simp; omega) | (injection h with h; subst h; rfl)

theorem item_num_i16 {c n : Nat} {f : Nat → Val} (h : MsgPack.item c = .num n f) (m : Nat) : isI16 (f m) = (c == 0xd1) := by
  unfold MsgPack.item at h
  repeat' split at h
  all_goals first | (cases h; done) | (injection h with _ h; subst h; rfl)

theorem item_other_i16 (c : Nat) (h : c = 0xd1) : ∃ n f, MsgPack.item c = .num n f := by
  subst h; exact ⟨_, _, rfl⟩

/-- The code of `int 16` and only this one makes an `int16`. -/
theorem dec_isI16 {fuel : Nat} {c : UInt8} {s r : Str} {v : Val} (h : MsgPack.dec fuel (c :: s) = some (v, r)) : isI16 v = (c == 0xd1) := by
  have e : (c == 0xd1) = (c.toNat == 0xd1) := by
    rw [Bool.eq_iff_iff, beq_iff_eq, beq_iff_eq, ← UInt8.toNat_inj]; rfl
  rw [e]
  rw [MsgPack.dec.eq_def] at h
  simp only at h
  have other : (∀ n f, MsgPack.item c.toNat ≠ .num n f) → (c.toNat == 0xd1) = false := by
    intro hn
    rw [beq_eq_false_iff_ne]
    intro hc
    obtain ⟨n, f, h⟩ := item_other_i16 _ hc
    exact hn n f h
  cases hi : MsgPack.item c.toNat <;> simp only [hi] at h
  case num k' f =>
    split at h
    · injection h with h; injection h with h1 h2
      rw [← h1, item_num_i16 hi]
    · cases h
  case val v =>
    injection h with h; injection h with h1 h2
    rw [← h1, item_val_i16 hi]
  all_goals
    rw [other (by rw [hi]; simp)]
    repeat' split at h
    all_goals first | (cases h; done) | (injection h with h; injection h with h1 h2; rw [← h1]; rfl)

theorem msgpack_items (fuel : Nat) (ps : List (Data × Str)) (rest : Str) (count levels : Nat)
    (hp : ∀ p ∈ ps, Formats.MsgPack [p.1] p.2) (hw : ∀ p ∈ ps, Within count levels p.1) (hf : ∀ p ∈ ps, p.2.length ≤ fuel) :
    ∃ vs, StandsL vs (ps.map Prod.fst) ∧ Wamp.Cbor.seqOf (MsgPack.dec fuel) ps.length (ps.flatMap Prod.snd ++ rest) = some (vs, rest) ∧
      vs.any isI16 = ps.any fun p => p.2.head? == some 0xd1 := by
  induction ps with
  | nil => exact ⟨[], .nil, rfl, rfl⟩
  | cons p ps ih =>
    obtain ⟨vs, h1, h2, h3⟩ := ih (fun q hq => hp q (List.mem_cons_of_mem _ hq)) (fun q hq => hw q (List.mem_cons_of_mem _ hq))
      (fun q hq => hf q (List.mem_cons_of_mem _ hq))
    obtain ⟨ws, h4, h5⟩ := msgpack_read (hp p (List.mem_cons_self ..)) fuel (hf p (List.mem_cons_self ..)) (ps.flatMap Prod.snd ++ rest) count levels
      (by intro d hd; rw [List.mem_singleton] at hd; subst hd; exact hw p (List.mem_cons_self ..))
    rw [standsL_cons] at h4
    obtain ⟨v, r, rfl, h4, h6⟩ := h4
    rw [standsL_nil] at h6
    subst h6
    rw [List.length_singleton, Wamp.Cbor.seqOf] at h5
    cases h7 : MsgPack.dec fuel (p.2 ++ (ps.flatMap Prod.snd ++ rest)) with
    | none => rw [h7] at h5; simp at h5
    | some q =>
      obtain ⟨v', s'⟩ := q
      rw [h7] at h5
      simp only [Wamp.Cbor.seqOf, Option.some.injEq, Prod.mk.injEq, List.cons.injEq, and_true] at h5
      obtain ⟨rfl, rfl⟩ := h5
      refine ⟨v' :: vs, .cons h4 h1, ?_, ?_⟩
      · rw [List.length_cons, List.flatMap_cons, List.append_assoc, Wamp.Cbor.seqOf, h7]
        simp only [h2]
      · rw [List.any_cons, List.any_cons, h3]
        congr 1
        cases hc : p.2 with
        | nil =>
          exact absurd hc (msgpack_ne (hp p (List.mem_cons_self ..)) (by simp))
        | cons c s =>
          rw [hc, List.cons_append] at h7
          rw [dec_isI16 h7]
          rfl

end Wamp.Formats
