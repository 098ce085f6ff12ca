import Verif.Model.Validator
import Verif.Spec.Layout
/-!
# The parser equals the layout specification
-/
namespace Wamp
open Spec

theorem Res.ofOption_bind {α β : Type} (x : Option α) (f : α → Option β) :
    Res.ofOption (x.bind f) = (Res.ofOption x).bind fun a => Res.ofOption (f a) := by
  cases x <;> rfl

theorem Res.bind_assoc {α β γ : Type} (x : Res α) (f : α → Res β) (g : β → Res γ) :
    (x.bind f).bind g = x.bind fun a => (f a).bind g := by
  cases x <;> rfl

/-- Running the validators with early exit. -/
def shortRun : List (Nat × Vd) → List Val → Fields → Res Fields
  | [], _, f => .ok f
  | (i, vd) :: rest, msg, f => (vd.run msg i f).bind fun f' => shortRun rest msg f'

/-- The position exists, or the validator tolerates its absence. -/
def Vd.safe (vd : Vd) (i : Nat) (msg : List Val) : Prop := i < msg.length ∨ vd = .args ∨ vd = .kwargs

theorem item_lt {msg : List Val} {i : Nat} (h : i < msg.length) : ∃ v, item msg i = .ok v := by
  refine ⟨msg[i], ?_⟩
  simp [item, h, Res.orPanic]

theorem item_ge {msg : List Val} {i : Nat} (h : ¬ i < msg.length) : item msg i = .panic := by
  have : msg[i]? = none := by simp; omega
  simp [item, this, Res.orPanic]

theorem ofOption_ne_panic {α : Type} (x : Option α) : Res.ofOption x ≠ .panic := by cases x <;> simp [Res.ofOption]

theorem map_ne_panic {α β : Type} {x : Res α} (f : α → β) (h : x ≠ .panic) : x.map f ≠ .panic := by
  cases x <;> simp_all

theorem Vd.run_safe {vd : Vd} {i : Nat} {msg : List Val} (h : vd.safe i msg) (f : Fields) :
    vd.run msg i f ≠ .panic := by
  by_cases hi : i < msg.length
  · obtain ⟨v, hv⟩ := item_lt hi
    cases vd <;> simp only [Vd.run, validateID, validateString, validateSlice, validateMap, hv, Res.bind_ok]
    case args => split
                 · simp
                 · exact map_ne_panic _ (ofOption_ne_panic _)
    case kwargs => split
                   · simp
                   · exact map_ne_panic _ (ofOption_ne_panic _)
    all_goals exact map_ne_panic _ (ofOption_ne_panic _)
  · rcases h with h | h | h
    · exact absurd h hi
    all_goals
      subst h
      have : i ≥ msg.length := by omega
      simp [Vd.run, this]

theorem runValidators_failed {spec : List (Nat × Vd)} {msg : List Val}
    (h : ∀ p ∈ spec, p.2.safe p.1 msg) (f : Fields) : runValidators spec msg f true = .err := by
  induction spec generalizing f with
  | nil => rfl
  | cons p rest ih =>
    obtain ⟨i, vd⟩ := p
    have h1 := Vd.run_safe (h (i, vd) (by simp)) f
    have h2 := ih (fun p hp => h p (by simp [hp]))
    simp only [runValidators]
    split
    · exact h2 _
    · exact h2 _
    · exact absurd (by assumption) h1

theorem runValidators_short {spec : List (Nat × Vd)} {msg : List Val}
    (h : ∀ p ∈ spec, p.2.safe p.1 msg) (f : Fields) : runValidators spec msg f false = shortRun spec msg f := by
  induction spec generalizing f with
  | nil => rfl
  | cons p rest ih =>
    obtain ⟨i, vd⟩ := p
    have h1 := Vd.run_safe (h (i, vd) (by simp)) f
    have h2 := ih (fun p hp => h p (by simp [hp]))
    simp only [runValidators, shortRun]
    cases hr : vd.run msg i f with
    | ok f' => simp only [h2, Res.bind_ok]
    | err => simp only [Res.bind_err]; exact runValidators_failed (fun p hp => h p (by simp [hp])) f
    | panic => exact absurd hr h1

theorem anysToStrings_eq (l : List Val) : anysToStrings l = texts? l := by
  induction l with
  | nil => rfl
  | cons v l ih =>
    simp only [anysToStrings, texts?, List.mapM_cons] at *
    rw [ih]
    cases v.asStr? with
    | none => rfl
    | some s => cases List.mapM Val.asStr? l <;> rfl

theorem parseHello_eq (f : Fields) : parseHello f =
    (Res.ofOption (texts? (subList f.details (str "authmethods")))).map fun ms =>
      .hello f.realm (subText f.details (str "authid")) (some ms)
        (subDict f.details (str "authextra")) (subDict f.details (str "roles")) := by
  have h1 : f.details.text (str "authid") = subText f.details (str "authid") := by
    simp only [GoMap.text, subText]
    cases f.details.get (str "authid") with
    | none => rfl
    | some v => cases v <;> rfl
  have h2 : ∀ k, f.details.sliceOrEmpty k = subList f.details k := by
    intro k
    simp only [subList, GoMap.sliceOrEmpty]
    cases f.details.get k with
    | none => rfl
    | some v => cases v <;> rfl
  have h3 : ∀ k, f.details.mapOrEmpty k = subDict f.details k := by
    intro k
    simp only [subDict, GoMap.mapOrEmpty]
    cases f.details.get k with
    | none => rfl
    | some v => cases v <;> rfl
  simp only [parseHello, h1, h2, h3, anysToStrings_eq]
  cases texts? (subList f.details (str "authmethods")) <;> rfl

/-- HELLO and AUTHENTICATE lists of length 2 are the ones whose validation reads past the end. -/
def shortLogin (k : Kind) (l : List Val) : Prop := (k = .hello ∨ k = .authenticate) ∧ l.length = 2

instance (k : Kind) (l : List Val) : Decidable (shortLogin k l) := by unfold shortLogin; infer_instance

set_option linter.unusedSimpArgs false in
theorem parse_eq (k : Kind) (l : List Val) (h : ¬ shortLogin k l) :
    parse k l = Res.ofOption (shape k l) := by
  rcases l with _ | ⟨a0, _ | ⟨a1, _ | ⟨a2, _ | ⟨a3, _ | ⟨a4, _ | ⟨a5, _ | ⟨a6, _ | ⟨a7, l⟩⟩⟩⟩⟩⟩⟩⟩ <;> cases k
  all_goals first
    | rfl
    | (exfalso; revert h; simp [shortLogin]; done)
    | (simp [parse, validateMessage, Kind.vspec, shape, Res.ofOption]; done)
    | (rw [parse, validateMessage, runValidators_short (by simp [Kind.vspec, Vd.safe])]
       simp [Kind.vspec, shape, shortRun, Vd.run, validateID, validateMap, validateSlice,
          validateString, item, Res.orPanic, id?, text?, dict?, list?, Res.map, Res.ofOption_bind,
          Res.bind_assoc, parseHello_eq]
       try rfl)

/-! ## Order of validators -/

/-- Effect of a validator on the field record. -/
def Vd.eff (vd : Vd) (msg : List Val) (i : Nat) : Res (Fields → Fields) :=
  match vd with
  | .args => if i ≥ msg.length then .ok (fun f => f)
             else (validateSlice msg i).map fun a f => { f with args := a }
  | .sessionID => (validateID msg i).map fun n f => { f with sessionID := n }
  | .messageType => (validateID msg i).map fun n f => { f with messageType := n }
  | .requestID => (validateID msg i).map fun n f => { f with requestID := n }
  | .registrationID => (validateID msg i).map fun n f => { f with registrationID := n }
  | .publicationID => (validateID msg i).map fun n f => { f with publicationID := n }
  | .subscriptionID => (validateID msg i).map fun n f => { f with subscriptionID := n }
  | .signature => (validateString msg i).map fun s f => { f with signature := s }
  | .uri => (validateString msg i).map fun s f => { f with uri := s }
  | .realm => (validateString msg i).map fun s f => { f with realm := s }
  | .authMethod => (validateString msg i).map fun s f => { f with authMethod := s }
  | .reason => (validateString msg i).map fun s f => { f with reason := s }
  | .extra => (validateMap msg i).map fun m f => { f with extra := m }
  | .options => (validateMap msg i).map fun m f => { f with options := m }
  | .details => (validateMap msg i).map fun m f => { f with details := m }
  | .kwargs => if i ≥ msg.length then .ok (fun f => f)
               else (validateMap msg i).map fun m f => { f with kwargs := m }

theorem Vd.run_eff (vd : Vd) (msg : List Val) (i : Nat) (f : Fields) :
    vd.run msg i f = (vd.eff msg i).map fun u => u f := by
  cases vd <;> simp only [Vd.run, Vd.eff]
  case args => split
               · rfl
               · cases validateSlice msg i <;> rfl
  case kwargs => split
                 · rfl
                 · cases validateMap msg i <;> rfl
  all_goals first
    | (cases validateID msg i <;> rfl)
    | (cases validateString msg i <;> rfl)
    | (cases validateMap msg i <;> rfl)

/-- A validator's effect, if any, is to set its own field. -/
inductive Vd.Sets : Vd → (Fields → Fields) → Prop
  | id (vd) : Vd.Sets vd (fun f => f)
  | args (a) : Vd.Sets .args fun f => { f with args := a }
  | sessionID (a) : Vd.Sets .sessionID fun f => { f with sessionID := a }
  | messageType (a) : Vd.Sets .messageType fun f => { f with messageType := a }
  | requestID (a) : Vd.Sets .requestID fun f => { f with requestID := a }
  | registrationID (a) : Vd.Sets .registrationID fun f => { f with registrationID := a }
  | publicationID (a) : Vd.Sets .publicationID fun f => { f with publicationID := a }
  | subscriptionID (a) : Vd.Sets .subscriptionID fun f => { f with subscriptionID := a }
  | signature (a) : Vd.Sets .signature fun f => { f with signature := a }
  | uri (a) : Vd.Sets .uri fun f => { f with uri := a }
  | realm (a) : Vd.Sets .realm fun f => { f with realm := a }
  | authMethod (a) : Vd.Sets .authMethod fun f => { f with authMethod := a }
  | reason (a) : Vd.Sets .reason fun f => { f with reason := a }
  | extra (a) : Vd.Sets .extra fun f => { f with extra := a }
  | options (a) : Vd.Sets .options fun f => { f with options := a }
  | details (a) : Vd.Sets .details fun f => { f with details := a }
  | kwargs (a) : Vd.Sets .kwargs fun f => { f with kwargs := a }

theorem Vd.eff_sets {vd : Vd} {msg : List Val} {i : Nat} {u : Fields → Fields} (h : vd.eff msg i = .ok u) :
    Vd.Sets vd u := by
  cases vd <;> simp only [Vd.eff] at h
  case args =>
    split at h
    · cases h; exact .id _
    · cases hv : validateSlice msg i <;> simp [hv] at h
      subst h; constructor
  case kwargs =>
    split at h
    · cases h; exact .id _
    · cases hv : validateMap msg i <;> simp [hv] at h
      subst h; constructor
  all_goals first
    | (cases hv : validateID msg i <;> simp [hv] at h; subst h; constructor)
    | (cases hv : validateString msg i <;> simp [hv] at h; subst h; constructor)
    | (cases hv : validateMap msg i <;> simp [hv] at h; subst h; constructor)

theorem Vd.Sets.comm {v w : Vd} {a b : Fields → Fields} (h1 : Vd.Sets v a) (h2 : Vd.Sets w b) (hne : v ≠ w)
    (f : Fields) : a (b f) = b (a f) := by
  cases h1 <;> cases h2 <;> first | rfl | exact absurd rfl hne

theorem runValidators_swap {p q : Nat × Vd} (hne : p.2 ≠ q.2) (rest : List (Nat × Vd)) (msg : List Val)
    (f : Fields) (b : Bool) :
    runValidators (p :: q :: rest) msg f b = runValidators (q :: p :: rest) msg f b := by
  obtain ⟨i, v⟩ := p
  obtain ⟨j, w⟩ := q
  simp only [runValidators, Vd.run_eff]
  cases hv : v.eff msg i <;> cases hw : w.eff msg j <;> simp
  rw [Vd.Sets.comm (Vd.eff_sets hv) (Vd.eff_sets hw) hne]

theorem runValidators_perm {l l' : List (Nat × Vd)} (hp : l.Perm l') (hnd : (l.map Prod.snd).Nodup)
    (msg : List Val) (f : Fields) (b : Bool) : runValidators l msg f b = runValidators l' msg f b := by
  induction hp generalizing f b with
  | nil => rfl
  | cons p _ ih =>
    obtain ⟨i, v⟩ := p
    simp only [List.map_cons, List.nodup_cons] at hnd
    simp only [runValidators]
    split <;> first | exact ih hnd.2 _ _ | rfl
  | swap p q rest =>
    refine runValidators_swap ?_ rest msg f b
    simp only [List.map_cons, List.nodup_cons, List.mem_cons, not_or] at hnd
    exact hnd.1.1
  | trans h1 _ ih1 ih2 =>
    rw [ih1 hnd, ih2 ((h1.map Prod.snd).nodup_iff.1 hnd)]

end Wamp
