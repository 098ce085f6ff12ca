import Verif.Model.ErrorText
import Verif.Spec.ErrorText
import Verif.Lemmas.Validator
/-!
# C154: the error for a malformed message says what is wrong with it
-/
namespace Wamp.ErrorText
open Spec Spec.Err

/-- The result without the text. -/
def TRes.forget {α : Type} : TRes α → Res α
  | .ok a => .ok a
  | .err _ => .err
  | .panic => .panic

private theorem typeName_eq (types : Nat → Str) (v : Val) : typeName types v = goType types v := by
  cases v <;> try rfl
  all_goals (rename_i k _; cases k <;> rfl)

private theorem str_append (a b : String) : str (a ++ b) = str a ++ str b := by
  simp [str, String.toList_append]

/-! ## The results are those of the model without texts -/

private theorem check_forget {α : Type} (types : Nat → Str) (msg : List Val) (i : Nat) (e : Str) (as : Val → Option α) (f : α → Fields) :
    (check types msg i e as f).forget = ((item msg i).bind fun v => Res.ofOption (as v)).map f := by
  unfold check item
  cases msg[i]? with
  | none => rfl
  | some v =>
    simp only [Res.orPanic, Res.bind_ok]
    cases as v <;> rfl

private theorem validator_forget (types : Nat → Str) (vd : Vd) (msg : List Val) (i : Nat) (f : Fields) :
    (validator types vd msg i f).forget = vd.run msg i f := by
  cases vd <;> simp only [validator, Vd.run]
  case args => split
               · rfl
               · exact check_forget _ _ _ _ _ _
  case kwargs => split
                 · rfl
                 · exact check_forget _ _ _ _ _ _
  all_goals exact check_forget _ _ _ _ _ _

private theorem loop_forget (types : Nat → Str) (order : List (Nat × Vd)) (msg : List Val) (f : Fields) (errs : List Str) :
    (loop types order msg f errs).forget = runValidators order msg f (decide (errs.length ≠ 0)) := by
  induction order generalizing f errs with
  | nil =>
    unfold loop runValidators
    by_cases h : errs.length ≠ 0
    · rw [if_pos h, if_pos (by simpa using h)]; rfl
    · rw [if_neg h, if_neg (by simpa using h)]; rfl
  | cons p rest ih =>
    obtain ⟨i, vd⟩ := p
    unfold loop runValidators
    rw [← validator_forget types]
    cases validator types vd msg i f with
    | ok f' => exact ih f' errs
    | err t =>
      have := ih f (errs ++ [t])
      simpa [TRes.forget] using this
    | panic => rfl

private theorem nodup (k : Kind) : (k.vspec.spec.map Prod.snd).Nodup := by cases k <;> decide

private theorem validateMessage_forget (types : Nat → Str) (k : Kind) (msg : List Val) (order : List (Nat × Vd))
    (hp : order.Perm k.vspec.spec) :
    (validateMessage types msg k.vspec.min k.vspec.max order).forget = Wamp.validateMessage msg k.vspec := by
  unfold validateMessage Wamp.validateMessage
  split
  · rfl
  · split
    · rfl
    · rw [loop_forget]
      exact (runValidators_perm hp.symm (nodup k) msg {} false).symm

private theorem parse_forget (types : Nat → Str) (shown : Val → Str) (k : Kind) (order : List (Nat × Vd))
    (hp : order.Perm k.vspec.spec) (msg : List Val) : (parse types shown order k msg).forget = Wamp.parse k msg := by
  have h := validateMessage_forget types k msg order hp
  unfold parse
  cases hv : validateMessage types msg k.vspec.min k.vspec.max order with
  | ok f => simp only []; cases Wamp.parse k msg <;> rfl
  | err t => rw [hv] at h; unfold Wamp.parse; rw [← h]; rfl
  | panic => rw [hv] at h; unfold Wamp.parse; rw [← h]; rfl

private theorem toMessage_forget (types : Nat → Str) (shown : Val → Str) (order : Kind → List (Nat × Vd))
    (hp : ∀ k, (order k).Perm k.vspec.spec) (msg : List Val) : (toMessage types shown order msg).forget = Wamp.toMessage msg := by
  unfold toMessage Wamp.toMessage item
  cases msg[0]? with
  | none => rfl
  | some v =>
    simp only [Res.orPanic, Res.bind_ok]
    cases kindOfCode ((asUInt64 v).getD 0) with
    | none => rfl
    | some k =>
      simp only []
      rw [← parse_forget types shown k (order k) (hp k) msg]
      cases parse types shown (order k) k msg <;> rfl

/-- **C154** (the results). Whatever orders Go takes, `Deserialize` gives a message, an error or a panic exactly as the rest of this development says. -/
theorem C154_results (types : Nat → Str) (shown : Val → Str) (order again : Kind → List (Nat × Vd))
    (h1 : ∀ k, (order k).Perm k.vspec.spec) (h2 : ∀ k, (again k).Perm k.vspec.spec) (library : Str → Str) (c : Codec) (b : Str) :
    (deserialize types shown order again library c b).forget = c.deserialize b := by
  unfold deserialize Codec.deserialize
  cases c.dec b with
  | none => rfl
  | some raw =>
    simp only [Res.ofOption, Res.bind_ok]
    rw [← toMessage_forget types shown order h1 raw]
    cases toMessage types shown order raw with
    | ok m => exact parse_forget types shown m.kind (again m.kind) (h2 _) raw
    | err t => rfl
    | panic => rfl

/-! ## The lines -/

/-- What belongs where a validator looks. -/
private def want : Vd → Want
  | .args => .list
  | .sessionID | .messageType | .requestID | .registrationID | .publicationID | .subscriptionID => .id
  | .signature | .uri | .realm | .authMethod | .reason => .text
  | .extra | .options | .details | .kwargs => .dict

/-- The line of a validator, if it has one. -/
private def lineOf (types : Nat → Str) (msg : List Val) (p : Nat × Vd) : Option Str :=
  match msg[p.1]? with
  | none => none
  | some v => if (want p.2).fits v then none else some (line types (p.1, want p.2, v))

private theorem badItem_eq (types : Nat → Str) (i : Nat) (w : Want) (v : Val) : badItem types i w.name v = line types (i, w, v) := by
  simp only [badItem, line, dec, typeName_eq, str_append]
  rfl

private theorem check_line {α : Type} (types : Nat → Str) (msg : List Val) (i : Nat) (w : Want) (as : Val → Option α) (f : α → Fields)
    (hw : ∀ v, w.fits v = (as v).isSome) (v : Val) (hv : msg[i]? = some v) :
    (w.fits v = true ∧ ∃ f', check types msg i w.name as f = .ok f') ∨
    (w.fits v = false ∧ check types msg i w.name as f = .err (line types (i, w, v))) := by
  unfold check
  rw [hv, hw v]
  simp only []
  cases as v with
  | none => exact .inr ⟨rfl, by rw [badItem_eq]⟩
  | some a => exact .inl ⟨rfl, _, rfl⟩

private theorem validator_line (types : Nat → Str) (msg : List Val) (i : Nat) (vd : Vd) (f : Fields) (hs : vd.safe i msg) :
    (lineOf types msg (i, vd) = none ∧ ∃ f', validator types vd msg i f = .ok f') ∨
    (∃ t, lineOf types msg (i, vd) = some t ∧ validator types vd msg i f = .err t) := by
  cases hv : msg[i]? with
  | none =>
    have hlen : msg.length ≤ i := by simpa using hv
    left
    refine ⟨by simp only [lineOf, hv], ?_⟩
    rcases hs with h | h | h
    · omega
    all_goals (subst h; exact ⟨f, by simp only [validator]; rw [if_pos hlen]⟩)
  | some v =>
    have hlen : ¬ i ≥ msg.length := by
      have := (List.getElem?_eq_some_iff.1 hv).1
      omega
    have key : ∀ {α : Type} (as : Val → Option α) (g : α → Fields), (∀ v, (want vd).fits v = (as v).isSome) →
        validator types vd msg i f = check types msg i (want vd).name as g →
        (lineOf types msg (i, vd) = none ∧ ∃ f', validator types vd msg i f = .ok f') ∨
        (∃ t, lineOf types msg (i, vd) = some t ∧ validator types vd msg i f = .err t) := by
      intro α as g hw he
      rw [he]
      rcases check_line types msg i (want vd) as g hw v hv with ⟨h1, h2⟩ | ⟨h1, h2⟩
      · exact .inl ⟨by simp only [lineOf, hv, h1, if_true], h2⟩
      · exact .inr ⟨_, by simp only [lineOf, hv, h1]; rfl, h2⟩
    cases vd
    case args => exact key Val.asSlice? _ (fun _ => rfl) (by simp only [validator]; rw [if_neg hlen]; rfl)
    case kwargs => exact key Val.asMap? _ (fun _ => rfl) (by simp only [validator]; rw [if_neg hlen]; rfl)
    all_goals first
      | exact key asUInt64 _ (fun _ => rfl) rfl
      | exact key Val.asStr? _ (fun _ => rfl) rfl
      | exact key Val.asMap? _ (fun _ => rfl) rfl

private theorem loop_lines (types : Nat → Str) (msg : List Val) (order : List (Nat × Vd)) (hs : ∀ p ∈ order, p.2.safe p.1 msg)
    (f : Fields) (errs : List Str) :
    (errs ++ order.filterMap (lineOf types msg) = [] ∧ ∃ f', loop types order msg f errs = .ok f') ∨
    (errs ++ order.filterMap (lineOf types msg) ≠ [] ∧
      loop types order msg f errs = .err (join (str "\n") (errs ++ order.filterMap (lineOf types msg)))) := by
  induction order generalizing f errs with
  | nil =>
    unfold loop
    simp only [List.filterMap_nil, List.append_nil]
    by_cases h : errs = []
    · exact .inl ⟨h, f, by subst h; rfl⟩
    · exact .inr ⟨h, by rw [if_pos (by simpa using h)]⟩
  | cons p rest ih =>
    obtain ⟨i, vd⟩ := p
    have ih' := fun f errs => ih (fun p hp => hs p (by simp [hp])) f errs
    unfold loop
    rcases validator_line types msg i vd f (hs (i, vd) (by simp)) with ⟨hl, f', hv⟩ | ⟨t, hl, hv⟩
    · rw [hv, List.filterMap_cons_none hl]
      exact ih' f' errs
    · rw [hv, List.filterMap_cons_some hl]
      have := ih' f (errs ++ [t])
      simpa only [List.append_assoc, List.singleton_append] using this

/-- Validators for consecutive positions. -/
private def number (i : Nat) : List Vd → List (Nat × Vd)
  | [] => []
  | vd :: rest => (i, vd) :: number (i + 1) rest

private theorem lines_number (types : Nat → Str) (vds : List Vd) (pre vs : List Val) :
    (number pre.length vds).filterMap (lineOf types (pre ++ vs)) = (misfits pre.length (vds.map want) vs).map (line types) := by
  induction vds generalizing pre vs with
  | nil => rfl
  | cons vd rest ih =>
    cases vs with
    | nil =>
      have : ∀ (i : Nat) (l : List Vd), pre.length ≤ i → (number i l).filterMap (lineOf types (pre ++ [])) = [] := by
        intro i l
        induction l generalizing i with
        | nil => intro _; rfl
        | cons a l ih2 =>
          intro h
          simp only [number]
          rw [List.filterMap_cons_none, ih2 (i + 1) (by omega)]
          have : (pre ++ [])[i]? = none := by simp; omega
          simp only [lineOf, this]
      rw [this _ _ (Nat.le_refl _)]
      rfl
    | cons v vs =>
      have hv : (pre ++ v :: vs)[pre.length]? = some v := by simp
      have ih' := ih (pre ++ [v]) vs
      simp only [List.append_assoc, List.singleton_append, List.length_append, List.length_singleton] at ih'
      simp only [number, List.map_cons, misfits]
      cases hf : (want vd).fits v with
      | true =>
        rw [List.filterMap_cons_none (by simp only [lineOf, hv, hf, if_true]), ih']
        simp
      | false =>
        rw [List.filterMap_cons_some (b := line types (pre.length, want vd, v)) (by simp only [lineOf, hv, hf]; rfl), ih']
        simp

private theorem spec_number (k : Kind) : k.vspec.spec = number 1 (k.vspec.spec.map Prod.snd) := by cases k <;> rfl
private theorem spec_layout (k : Kind) : (layout k).1 = (k.vspec.spec.map Prod.snd).map want := by cases k <;> rfl

private theorem spec_lines (types : Nat → Str) (k : Kind) (a : Val) (vs : List Val) :
    k.vspec.spec.filterMap (lineOf types (a :: vs)) = (wrong k (a :: vs)).map (line types) := by
  rw [spec_number]
  have := lines_number types (k.vspec.spec.map Prod.snd) [a] vs
  simp only [wrong, spec_layout]
  exact this

private theorem safe (k : Kind) (l : List Val) (h : RightLength k l) : ∀ p ∈ k.vspec.spec, p.2.safe p.1 l := by
  obtain ⟨h1, _⟩ := h
  cases k <;> simp only [layout, List.length_cons, List.length_nil] at h1 <;>
    simp [Kind.vspec, Vd.safe] <;> omega

private theorem lines_join (a : Str) (l : List Str) : Lines (a :: l) (join (str "\n") (a :: l)) := by
  induction l generalizing a with
  | nil => exact .one a
  | cons b l ih => exact .more a (b :: l) _ (ih b)

private theorem range (k : Kind) (l : List Val) (h : RightLength k l) : ¬ l.length < k.vspec.min ∧ ¬ l.length > k.vspec.max := by
  obtain ⟨h1, h2⟩ := h
  cases k <;> simp only [layout, List.length_cons, List.length_nil] at h1 h2 <;> simp only [Kind.vspec] <;> omega

private theorem core (types : Nat → Str) (k : Kind) (l : List Val) (hl : RightLength k l) (order : List (Nat × Vd))
    (hp : order.Perm k.vspec.spec) :
    (wrong k l = [] ∧ ∃ f, validateMessage types l k.vspec.min k.vspec.max order = .ok f) ∨
    (wrong k l ≠ [] ∧ ∃ lines t, lines.Perm ((wrong k l).map (line types)) ∧ Lines lines t ∧
      validateMessage types l k.vspec.min k.vspec.max order = .err t) := by
  have hr := range k l hl
  obtain ⟨a, vs, rfl⟩ : ∃ a vs, l = a :: vs := by
    cases l with
    | nil => exfalso; revert hr; cases k <;> simp [Kind.vspec]
    | cons a vs => exact ⟨a, vs, rfl⟩
  have hperm := (hp.filterMap (lineOf types (a :: vs)))
  rw [spec_lines] at hperm
  unfold validateMessage
  rw [if_neg hr.1, if_neg hr.2]
  rcases loop_lines types (a :: vs) order (fun p h => safe k _ hl p (hp.mem_iff.1 h)) {} [] with ⟨h1, h2⟩ | ⟨h1, h2⟩
  · left
    rw [List.nil_append] at h1
    rw [h1] at hperm
    exact ⟨by simpa using hperm.symm.eq_nil, h2⟩
  · right
    rw [List.nil_append] at h1 h2
    refine ⟨?_, _, _, hperm, ?_, h2⟩
    · intro h
      rw [h] at hperm
      exact h1 hperm.eq_nil
    · cases hc : order.filterMap (lineOf types (a :: vs)) with
      | nil => exact absurd hc h1
      | cons b rest => exact lines_join b rest

/-- How the error about a message of class `k` begins. -/
private theorem opening_name (k : Kind) : (opening k).2 = str (name k) := by cases k <;> rfl

private theorem opening_own (k : Kind) : OwnName k (opening k).1 := by
  intro n1 n2 n3
  cases k <;> first | rfl | exact absurd rfl n1 | exact absurd rfl n2 | exact absurd rfl n3

/-! ## The property -/

/-- **C154** (the elements). A message with the right number of elements some of which have the wrong type gives an error that names the class and has
exactly one line for every wrong element, and no other line: its position, what belongs there, and what is there.  Only the order of the lines depends on
the order Go takes. -/
theorem C154_elements_partial (types : Nat → Str) (shown : Val → Str) (k : Kind) (l : List Val) (order : List (Nat × Vd))
    (hp : order.Perm k.vspec.spec) (hl : RightLength k l) (hw : wrong k l ≠ []) :
    ∃ first lines t, lines.Perm ((wrong k l).map (line types)) ∧ Lines lines t ∧
      parse types shown order k l = .err (first ++ str ": failed to validate message " ++ str (name k) ++ str ": " ++ t) ∧
      OwnName k first := by
  rcases core types k l hl order hp with ⟨h, _⟩ | ⟨_, lines, t, h1, h2, h3⟩
  · exact absurd h hw
  · refine ⟨(opening k).1, lines, t, h1, h2, ?_, ?_⟩
    · unfold parse
      rw [h3, opening_name]
    · exact opening_own k

/-- The error about a malformed UNSUBSCRIBE begins like the one about a malformed UNREGISTER. -/
theorem C154_refuted (types : Nat → Str) (shown : Val → Str) (order : List (Nat × Vd)) (hp : order.Perm Kind.unsubscribe.vspec.spec)
    (l : List Val) (hl : RightLength .unsubscribe l) (hw : wrong .unsubscribe l ≠ []) :
    ∃ t, parse types shown order .unsubscribe l = .err (lower (name .unregister) ++ str ": failed to validate message UNSUBSCRIBE: " ++ t) := by
  rcases core types .unsubscribe l hl order hp with ⟨h, _⟩ | ⟨_, _, t, _, _, h3⟩
  · exact absurd h hw
  · refine ⟨t, ?_⟩
    unfold parse
    rw [h3]
    rfl

/-- **C154** (nothing wrong). If all elements fit there is no such error: the only error left is the one about the authentication methods of a HELLO, which
shows the first one that is not a string. -/
theorem C154_methods (types : Nat → Str) (shown : Val → Str) (k : Kind) (l : List Val) (order : List (Nat × Vd))
    (hp : order.Perm k.vspec.spec) (hl : RightLength k l) (hw : wrong k l = []) (t : Str) (he : parse types shown order k l = .err t) :
    ∃ code realm details before v after, k = .hello ∧ l = [code, realm, .map details] ∧
      (GoMap.get (some details) (str "authmethods")) = some (.arr (before ++ v :: after)) ∧
      (∀ x ∈ before, x.asStr?.isSome) ∧ v.asStr? = none ∧
      t = str "hello: failed to parse auth methods: element " ++ shown v ++ str " is not a string" := by
  rcases core types k l hl order hp with ⟨_, f, hf⟩ | ⟨h, _⟩
  · have hfor := validateMessage_forget types k l order hp
    rw [hf] at hfor
    unfold parse at he
    rw [hf] at he
    simp only [] at he
    have hpar : Wamp.parse k l = .err := by
      cases h : Wamp.parse k l with
      | ok m => rw [h] at he; simp at he
      | err => rfl
      | panic => rw [h] at he; simp at he
    have ht : t = str "hello: failed to parse auth methods: " ++ notAString shown (f.details.sliceOrEmpty (str "authmethods")) := by
      rw [hpar] at he
      simpa using he.symm
    have hk : k = .hello := by
      unfold Wamp.parse at hpar
      rw [← hfor] at hpar
      simp only [TRes.forget, Res.bind_ok] at hpar
      cases k <;> first | rfl | cases hpar
    subst hk
    obtain ⟨code, realm, d, rfl⟩ : ∃ a b c, l = [a, b, c] := by
      obtain ⟨h1, h2⟩ := hl
      simp only [layout, List.length_cons, List.length_nil] at h1 h2
      rcases l with _ | ⟨a, _ | ⟨b, _ | ⟨c, _ | ⟨e, l⟩⟩⟩⟩
      · simp at h1
      · simp at h1
      · simp at h1
      · exact ⟨a, b, c, rfl⟩
      · simp at h2
    -- the details that validation found
    have hd : d.asMap? = some f.details := by
      have hfor' : Res.ok f = Wamp.validateMessage [code, realm, d] Kind.hello.vspec := hfor
      rw [Wamp.validateMessage, runValidators_short (by simp [Kind.vspec, Vd.safe])] at hfor'
      simp [Kind.vspec, shortRun, Vd.run, validateString, validateMap, item, Res.orPanic, Res.map] at hfor'
      cases hr : realm.asStr? with
      | none => simp [hr, Res.ofOption] at hfor'
      | some r =>
        cases hm : d.asMap? with
        | none => simp [hr, hm, Res.ofOption] at hfor'
        | some m => simp [hr, hm, Res.ofOption] at hfor'; rw [hfor']
    have hnone : anysToStrings (f.details.sliceOrEmpty (str "authmethods")) = none := by
      unfold Wamp.parse at hpar
      rw [← hfor] at hpar
      simp only [TRes.forget, Res.bind_ok, parseHello] at hpar
      cases h : anysToStrings (f.details.sliceOrEmpty (str "authmethods")) with
      | none => rfl
      | some ms => rw [h] at hpar; simp at hpar
    have split : ∀ ms : List Val, anysToStrings ms = none → ∃ before v after, ms = before ++ v :: after ∧ (∀ x ∈ before, x.asStr?.isSome) ∧
        v.asStr? = none ∧ notAString shown ms = str "element " ++ shown v ++ str " is not a string" := by
      intro ms
      induction ms with
      | nil => intro h; simp [anysToStrings] at h
      | cons x ms ih =>
        intro h
        cases hx : x.asStr? with
        | none => exact ⟨[], x, ms, rfl, by simp, hx, by simp only [notAString, hx]⟩
        | some s =>
          have : anysToStrings ms = none := by simpa [anysToStrings, hx] using h
          obtain ⟨b, v, a, h1, h2, h3, h4⟩ := ih this
          refine ⟨x :: b, v, a, by rw [h1]; rfl, ?_, h3, by simp only [notAString, hx]; exact h4⟩
          intro y hy
          rcases List.mem_cons.1 hy with rfl | hy
          · rw [hx]; rfl
          · exact h2 y hy
    obtain ⟨b, v, a, h1, h2, h3, h4⟩ := split _ hnone
    have hget : f.details.get (str "authmethods") = some (.arr (b ++ v :: a)) := by
      unfold GoMap.sliceOrEmpty at h1
      cases hg : f.details.get (str "authmethods") with
      | none => rw [hg] at h1; simp at h1
      | some w =>
        rw [hg] at h1
        cases w <;> simp [Val.asSlice?] at h1 ⊢
        exact h1
    cases hfd : f.details with
    | none => rw [hfd] at hget; simp [GoMap.get] at hget
    | some m =>
      rw [hfd] at hd hget
      have : d = .map m := by
        cases d <;> simp [Val.asMap?] at hd
        rw [hd]
      subst this
      refine ⟨code, realm, m, b, v, a, rfl, rfl, hget, h2, h3, ?_⟩
      rw [ht, h4]
      simp [str]
  · exact absurd hw h

/-- **C154** (the length). Too few or too many elements give an error that names the class, says how many are needed at least or at most, and how many there
are.  For HELLO and AUTHENTICATE the error about too few says two, although three are needed. -/
theorem C154_length_partial (types : Nat → Str) (shown : Val → Str) (k : Kind) (l : List Val) (order : List (Nat × Vd)) :
    (l.length + (layout k).2 < 1 + (layout k).1.length → k ≠ .hello → k ≠ .authenticate →
      ∃ first, OwnName k first ∧ parse types shown order k l = .err (first ++ str ": failed to validate message " ++ str (name k) ++ str ": " ++
        str s!"unexpected message length, must be atleast {1 + (layout k).1.length - (layout k).2}, was {l.length}")) ∧
    (1 + (layout k).1.length < l.length →
      ∃ first, OwnName k first ∧ parse types shown order k l = .err (first ++ str ": failed to validate message " ++ str (name k) ++ str ": " ++
        str s!"unexpected message length, must be atmost {1 + (layout k).1.length}, was {l.length}")) := by
  constructor
  · intro h n1 n2
    have hm : k.vspec.min = 1 + (layout k).1.length - (layout k).2 := by
      cases k <;> first | rfl | exact absurd rfl n1 | exact absurd rfl n2
    refine ⟨(opening k).1, opening_own k, ?_⟩
    unfold parse validateMessage
    rw [if_pos (by omega), opening_name, hm]
    simp only [dec, str_append]
    rfl
  · intro h
    have hm : k.vspec.max = 1 + (layout k).1.length := by cases k <;> rfl
    have hmin : k.vspec.min ≤ k.vspec.max := by cases k <;> decide
    refine ⟨(opening k).1, opening_own k, ?_⟩
    unfold parse validateMessage
    rw [if_neg (by omega), if_pos (by omega), opening_name, hm]
    simp only [dec, str_append]
    rfl

/-- A HELLO or AUTHENTICATE with one element only: the error says that two would do.  With two, `Parse` panics. -/
theorem C154_length_refuted (types : Nat → Str) (shown : Val → Str) (k : Kind) (hk : k = .hello ∨ k = .authenticate) (order : List (Nat × Vd))
    (hp : order.Perm k.vspec.spec) (a b : Val) :
    (∃ first, OwnName k first ∧ parse types shown order k [a] = .err (first ++ str ": failed to validate message " ++ str (name k) ++ str ": " ++
        str "unexpected message length, must be atleast 2, was 1")) ∧
    parse types shown order k [a, b] = .panic := by
  constructor
  · refine ⟨(opening k).1, opening_own k, ?_⟩
    have h2 : str "unexpected message length, must be atleast " ++ dec 2 ++ str ", was " ++ dec 1 =
        str "unexpected message length, must be atleast 2, was 1" := by decide +kernel
    have hm : k.vspec.min = 2 := by rcases hk with rfl | rfl <;> rfl
    unfold parse validateMessage
    rw [hm, if_pos (by simp), opening_name]
    exact congrArg (fun x => TRes.err ((opening k).1 ++ str ": failed to validate message " ++ str (name k) ++ str ": " ++ x)) h2
  · have h := parse_forget types shown k order hp [a, b]
    have : Wamp.parse k [a, b] = .panic := by
      rcases hk with rfl | rfl
      · simp [Wamp.parse, Wamp.validateMessage, Kind.vspec, runValidators, Vd.run, validateString, validateMap, item, Res.orPanic]
        cases b.asStr? <;> simp [Res.ofOption]
      · simp [Wamp.parse, Wamp.validateMessage, Kind.vspec, runValidators, Vd.run, validateString, validateMap, item, Res.orPanic]
        cases b.asStr? <;> simp [Res.ofOption]
    rw [this] at h
    cases hq : parse types shown order k [a, b] with
    | ok m => rw [hq] at h; cases h
    | err t => rw [hq] at h; cases h
    | panic => rfl

/-- **C154** (the whole). `ToMessage` and `Deserialize` pass the error of the class on; a first element that is no known type code gives an error with the
name of that element's Go type, not with its value. -/
theorem C154_outer (types : Nat → Str) (shown : Val → Str) (order again : Kind → List (Nat × Vd)) (library : Str → Str) (c : Codec) (b : Str)
    (v : Val) (rest : List Val) (hd : c.dec b = some (v :: rest)) :
    (∀ k t, kindOfCode ((asUInt64 v).getD 0) = some k → parse types shown (order k) k (v :: rest) = .err t →
      deserialize types shown order again library c b = .err (str "invalid message: " ++ t)) ∧
    (kindOfCode ((asUInt64 v).getD 0) = none →
      deserialize types shown order again library c b = .err (str "unknown message " ++ goType types v)) := by
  constructor
  · intro k t hk ht
    simp only [deserialize, hd, toMessage, List.getElem?_cons_zero, hk, ht]
  · intro hk
    simp only [deserialize, hd, toMessage, List.getElem?_cons_zero, hk, typeName_eq]

/-- Two unknown type codes of the same Go type cannot be told apart by the error. -/
theorem C154_unknown_refuted (types : Nat → Str) (shown : Val → Str) (order : Kind → List (Nat × Vd)) (m n : Nat) (r1 r2 : List Val)
    (hm : kindOfCode m = none) (hn : kindOfCode n = none) :
    toMessage types shown order (.uint .u64 m :: r1) = .err (str "unknown message uint64") ∧
    toMessage types shown order (.uint .u64 n :: r2) = .err (str "unknown message uint64") := by
  constructor
  · simp only [toMessage, List.getElem?_cons_zero, asUInt64, Option.getD_some, hm]; rfl
  · simp only [toMessage, List.getElem?_cons_zero, asUInt64, Option.getD_some, hn]; rfl

/-! ## Concrete cases -/

/-- A CALL with two wrong elements, in either order. -/
private def badCall : List Val := [.int .int 48, .str (str "x"), .mapNil, .int .int 7]

example : RightLength .call badCall ∧ (wrong .call badCall).map (fun p => (p.1, p.2.1)) = [(1, .id), (3, .text)] := by
  refine ⟨⟨by decide, by decide⟩, by decide +kernel⟩

/-- The text of a result. -/
private def textOf {α : Type} : TRes α → Option Str
  | .err t => some t
  | _ => none

example : textOf (parse (fun _ => []) (fun _ => []) Kind.call.vspec.spec .call badCall) =
    some (str "call: failed to validate message CALL: item at index 1 must be of type uint64 but was string\nitem at index 3 must be of type string but was int") := by
  decide +kernel

example : textOf (parse (fun _ => []) (fun _ => []) Kind.call.vspec.spec.reverse .call badCall) =
    some (str "call: failed to validate message CALL: item at index 3 must be of type string but was int\nitem at index 1 must be of type uint64 but was string") := by
  decide +kernel

example : textOf (parse (fun _ => []) (fun _ => []) Kind.hello.vspec.spec .hello
      [.int .int 1, .str (str "r"), .map [(str "authmethods", .arr [.str (str "ticket"), .bool true])]]) =
    some (str "hello: failed to parse auth methods: element  is not a string") := by
  decide +kernel

example : textOf (parse (fun _ => []) (fun _ => []) Kind.unsubscribe.vspec.spec .unsubscribe [.int .int 34, .int .int 1, .nil]) =
    some (str "unregister: failed to validate message UNSUBSCRIBE: item at index 2 must be of type uint64 but was <nil>") := by
  decide +kernel

end Wamp.ErrorText
