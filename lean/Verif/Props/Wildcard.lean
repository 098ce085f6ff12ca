import Verif.Spec.Wildcard
import Verif.Props.Dealer
import Verif.Props.Broker
/-!
# C92: what wildcard patterns match
-/
namespace Wamp.Wildcard

variable {w : Str → Str → Bool}

theorem glob_chars {x p s : Str} (hx : star ∉ x) : Glob (x ++ p) s ↔ ∃ t, s = x ++ t ∧ Glob p t := by
  induction x generalizing s with
  | nil => simp
  | cons c x ih =>
    simp only [List.mem_cons, not_or] at hx
    constructor
    · intro h
      cases h with
      | char _ _ h =>
        obtain ⟨t, rfl, ht⟩ := (ih hx.2).1 h
        exact ⟨t, rfl, ht⟩
      | none => exact absurd rfl hx.1
      | more => exact absurd rfl hx.1
    · rintro ⟨t, rfl, ht⟩
      exact .char c (fun e => hx.1 e.symm) ((ih hx.2).2 ⟨t, rfl, ht⟩)

theorem glob_star {p s : Str} : Glob (star :: p) s ↔ ∃ g t, s = g ++ t ∧ slash ∉ g ∧ Glob p t := by
  constructor
  · intro h
    generalize hq : star :: p = q at h
    induction h with
    | done => cases hq
    | char c hc _ => cases hq; exact absurd rfl hc
    | none h => cases hq; exact ⟨[], _, rfl, by simp, h⟩
    | more c hc _ ih =>
      obtain ⟨g, t, rfl, hg, ht⟩ := ih hq
      exact ⟨c :: g, t, rfl, by simp [hg, Ne.symm hc], ht⟩
  · rintro ⟨g, t, rfl, hg, ht⟩
    induction g with
    | nil => exact .none ht
    | cons c g ih =>
      simp only [List.mem_cons, not_or] at hg
      exact .more c (fun e => hg.1 e.symm) (ih hg.2)

/-- A pattern without special characters. -/
def Plain (p : Str) : Prop := (∀ c ∈ p, ordinary c) ∧ star ∉ p

/-- **C92** what holds: a pattern without special characters, in particular any WAMP pattern, matches nothing but itself. -/
theorem C92_plain_partial (hw : Documented w) (p s : Str) (hp : Plain p) : w s p = true ↔ s = p := by
  rw [hw p s hp.1]
  have := glob_chars (p := []) (s := s) hp.2
  rw [List.append_nil] at this
  rw [this]
  constructor
  · rintro ⟨t, rfl, ht⟩
    cases ht
    exact List.append_nil p
  · rintro rfl
    exact ⟨[], (List.append_nil _).symm, .done⟩

theorem glob_pattern {x s : Str} {ys : List Str} (hx : star ∉ x) (hy : ∀ y ∈ ys, star ∉ y) :
    Glob (pattern x ys) s ↔ ∃ gs : List Str, gs.length = ys.length ∧ (∀ g ∈ gs, slash ∉ g) ∧ s = fill x (gs.zip ys) := by
  induction ys generalizing x s with
  | nil =>
    have := glob_chars (p := []) (s := s) hx
    rw [List.append_nil] at this
    simp only [pattern, this]
    constructor
    · rintro ⟨t, rfl, ht⟩
      cases ht
      exact ⟨[], rfl, by simp, by simp [fill]⟩
    · rintro ⟨gs, h1, -, h3⟩
      exact ⟨[], by rw [List.append_nil, h3, List.zip_nil_right]; rfl, .done⟩
  | cons y ys ih =>
    have hys : ∀ y ∈ ys, star ∉ y := fun z hz => hy z (.tail _ hz)
    simp only [pattern, glob_chars hx, glob_star]
    constructor
    · rintro ⟨t, rfl, g, t', rfl, hg, ht⟩
      obtain ⟨gs, h1, h2, rfl⟩ := (ih (hy y (.head _)) hys).1 ht
      refine ⟨g :: gs, by simp [h1], ?_, by simp [fill]⟩
      intro g' hg'
      rcases List.mem_cons.1 hg' with rfl | hg'
      · exact hg
      · exact h2 g' hg'
    · rintro ⟨gs, h1, h2, rfl⟩
      cases gs with
      | nil => cases h1
      | cons g gs =>
        refine ⟨g ++ fill y (gs.zip ys), by simp [fill], g, _, rfl, h2 g (.head _), ?_⟩
        exact (ih (hy y (.head _)) hys).2 ⟨gs, by simpa using h1, fun g' hg' => h2 g' (.tail _ hg'), rfl⟩

/-- **C92** what holds: a pattern with stars matches exactly the strings one gets by putting arbitrary strings without `/`, also empty
ones and ones with dots, in the place of the stars. -/
theorem C92_stars_partial (hw : Documented w) (x : Str) (ys : List Str) (s : Str) (hx : Plain x) (hy : ∀ y ∈ ys, Plain y) :
    w s (pattern x ys) = true ↔ ∃ gs : List Str, gs.length = ys.length ∧ (∀ g ∈ gs, slash ∉ g) ∧ s = fill x (gs.zip ys) := by
  rw [hw, glob_pattern hx.2 fun y h => (hy y h).2]
  have : ∀ ys x, Plain x → (∀ y ∈ ys, Plain y) → ∀ c ∈ pattern x ys, ordinary c := by
    intro ys
    induction ys with
    | nil => exact fun x hx _ => hx.1
    | cons y ys ih =>
      intro x hx hy c hc
      simp only [pattern, List.mem_append, List.mem_cons] at hc
      rcases hc with hc | rfl | hc
      · exact hx.1 c hc
      · decide
      · exact ih y (hy y (.head _)) (fun z hz => hy z (.tail _ hz)) c hc
  exact this ys x hx hy

/-- `path.Match` on these patterns. -/
def glob : Str → Str → Bool
  | s, [] => s.isEmpty
  | [], c :: p => c = star && glob [] p
  | a :: s, c :: p => if c = star then glob (a :: s) p || (a ≠ slash && glob s (c :: p)) else a = c && glob s p
termination_by s p => (s.length + p.length)

theorem glob_iff (s p : Str) : glob s p = true ↔ Glob p s := by
  fun_induction glob s p with
  | case1 s =>
    cases s with
    | nil => simp; exact .done
    | cons => simp; intro h; cases h
  | case2 c p ih =>
    simp only [Bool.and_eq_true, decide_eq_true_eq, ih]
    constructor
    · rintro ⟨rfl, h⟩; exact .none h
    · intro h
      cases h with
      | none h => exact ⟨rfl, h⟩
  | case3 a s p ih1 ih2 =>
    simp only [Bool.or_eq_true, Bool.and_eq_true, decide_eq_true_eq, ih1, ih2]
    constructor
    · rintro (h | ⟨h1, h2⟩)
      · exact .none h
      · exact .more a h1 h2
    · intro h
      cases h with
      | char _ h => exact absurd rfl h
      | none h => exact .inl h
      | more _ h1 h2 => exact .inr ⟨h1, h2⟩
  | case4 a s c p hc ih =>
    simp only [Bool.and_eq_true, decide_eq_true_eq, ih]
    constructor
    · rintro ⟨rfl, h⟩; exact .char a hc h
    · intro h
      cases h with
      | char _ _ h => exact ⟨rfl, h⟩
      | none => exact absurd rfl hc
      | more => exact absurd rfl hc

theorem glob_documented : Documented glob := fun p s _ => glob_iff s p

/-- A function meeting the assumption, and a pattern with two stars that match something with dots. -/
example : Documented glob ∧ pattern (str "a.") [str ".c", str ""] = str "a.*.c*" ∧ glob (str "a.x.y.c.d") (str "a.*.c*") = true ∧
    glob (str "a.x/y.c") (str "a.*.c*") = false :=
  ⟨glob_documented, by decide +kernel, by decide +kernel, by decide +kernel⟩

/-- **C92** The full statement fails: a pattern that by the WAMP specification matches a URI other than itself is not matched by it. -/
theorem C92_not_wamp (hw : Documented w) (p s : Str) (hp : Plain p) (hne : s ≠ p) : w s p = false := by
  cases h : w s p with
  | false => rfl
  | true => exact absurd ((C92_plain_partial hw p s hp).1 h) hne

example : Plain (str "a..c") ∧ wampMatch (components (str "a..c")) (components (str "a.b.c")) ∧ str "a.b.c" ≠ str "a..c" := by
  refine ⟨⟨by decide +kernel, by decide +kernel⟩, ?_, by decide +kernel⟩
  have h1 : components (str "a..c") = [str "a", [], str "c"] := by decide +kernel
  have h2 : components (str "a.b.c") = [str "a", str "b", str "c"] := by decide +kernel
  rw [h1, h2]
  exact ⟨.inr rfl, .inl rfl, .inr rfl, trivial⟩

/-- **C92** And one with a star matches a URI with more components. -/
theorem C92_crosses_dots (hw : Documented w) : w (str "a.x.y.c") (str "a.*.c") = true := by
  have h : str "a.*.c" = pattern (str "a.") [str ".c"] := by decide +kernel
  rw [h, C92_stars_partial hw]
  · exact ⟨[str "x.y"], rfl, by decide +kernel, by decide +kernel⟩
  · exact ⟨by decide +kernel, by decide +kernel⟩
  · exact fun y hy => by
      simp only [List.mem_singleton] at hy
      subst hy
      exact ⟨by decide +kernel, by decide +kernel⟩

/-- **C92** what follows for events: they reach the subscribers of a wildcard pattern without special characters only if they are
published to the pattern itself. -/
theorem C92_event (hw : Documented w) {h : List Broker.Event} {b : Broker.State} (hh : Broker.Hist w h b) (hlen : h.length < 2 ^ 53)
    (s q : Nat) (o : GoMap) (u : Str) (a : GoSlice) (k : GoMap) (wo : List Str) (so : List Nat) (pub : Broker.Publication)
    (hp : (Broker.step w b (.publish s q o u a k wo so)).2 = .ok (.pub pub)) (x : Nat) (hx : x ∈ pub.recipients) :
    ∃ i n d t, pub.event = some (.event i n d a k) ∧ Broker.current h x t = some i ∧
      (Broker.policy h i = some (str "wildcard") → Plain t → t = u) := by
  obtain ⟨-, i, n, d, t, h1, h2, h3⟩ := Broker.C71_recipients_partial hh hlen s q o u a k wo so pub hp x hx
  refine ⟨i, n, d, t, h1, h2, fun hpol ht => ?_⟩
  rcases h3 with h3 | ⟨-, h3⟩ | ⟨h3, -⟩
  · exact h3
  · rw [hpol] at h3
    exact absurd h3 (by decide +kernel)
  · exact ((C92_plain_partial hw t u ht).1 h3).symm

/-- A subscriber of `a..c` with the wildcard policy gets what is published to `a..c`, and nothing of what is published to `a.b.c`. -/
example : ∃ h b, Broker.Hist glob h b ∧ Broker.policy h 1 = some (str "wildcard") ∧ Broker.current h 1 (str "a..c") = some 1 ∧
    (Broker.step glob b (Broker.pub 1 "a..c")).2.map (Broker.Event.recipients ⟨Broker.pub 1 "a..c", .ok ·⟩) = .ok [1] ∧
    (Broker.step glob b (Broker.pub 1 "a.b.c")).2.map (Broker.Event.recipients ⟨Broker.pub 1 "a.b.c", .ok ·⟩) = .ok [] := by
  refine ⟨_, _, Broker.hist_exec .new [.add (Broker.who 1), Broker.subWith 1 "a..c" "wildcard"], ?_, ?_, ?_, ?_⟩ <;> decide +kernel

/-- **C92** what follows for calls, where nobody registers twice or unregisters a shared registration: they reach the callees of a
wildcard pattern without special characters only if they name the pattern itself. -/
theorem C92_call (hw : Documented w) {h : List Dealer.Event} {b : Dealer.State} (hh : Dealer.Hist w h b) (hlen : h.length < 2 ^ 53)
    (p : Str) (ht : Dealer.Tame p h) (hp : Plain p)
    (c r : Nat) (o : GoMap) (u : Str) (a : GoSlice) (k : GoMap) (bin : Bin) (order : List Str) (rnd : Nat)
    (j i s : Nat) (d : GoMap) (a' : GoSlice) (k' : GoMap) (bin' : Bin)
    (he : (Dealer.step w b (.receive c (.call r o u a k bin) order rnd)).2 = .ok (.msg (.invocation j i d a' k' bin') s))
    (hi : Dealer.idOf h p i) :
    ∃ g, Dealer.regOf h p = some g ∧ g.id = i ∧ s ∈ g.members ∧ (g.mtch = str "wildcard" → u = p) := by
  obtain ⟨g, h1, h2, h3, h4⟩ := Dealer.C54_members hh hlen p ht c r o u a k bin order rnd j i s d a' k' bin' he hi
  refine ⟨g, h1, h2, h3, fun hm => ?_⟩
  rcases h4 with h4 | ⟨-, h4⟩ | ⟨h4, -⟩
  · exact h4.symm
  · rw [hm] at h4
    exact absurd h4 (by decide +kernel)
  · exact (C92_plain_partial hw p u hp).1 h4

/-- A callee of `a..c` is called under that name, not under `a.b.c`; a callee of `b.*.c` also under `b.x.y.c`. -/
example : ∃ h b, Dealer.Hist glob h b ∧ Dealer.Tame (str "a..c") h ∧ (Dealer.regOf h (str "a..c")).map Dealer.RegView.mtch = some (str "wildcard") ∧
    Dealer.Event.invocation? ⟨Dealer.callOf 1 7 "a..c", (Dealer.step glob b (Dealer.callOf 1 7 "a..c")).2⟩ = some (3, 1, 2) ∧
    (Dealer.step glob b (Dealer.callOf 1 7 "a.b.c")).2.map (fun o => match o with | .msg (.error t _ _ _ _ _) _ => t | _ => 0) = .ok 48 ∧
    Dealer.Event.invocation? ⟨Dealer.callOf 1 7 "b.x.y.c", (Dealer.step glob b (Dealer.callOf 1 7 "b.x.y.c")).2⟩ = some (3, 2, 2) := by
  refine ⟨_, _, Dealer.hist_run [.add (Dealer.who 1), .add (Dealer.who 2), Dealer.regPattern 2 "a..c" "wildcard", Dealer.regPattern 2 "b.*.c" "wildcard"]
    (by decide +kernel), ?_, by decide +kernel, by decide +kernel, by decide +kernel, by decide +kernel⟩
  refine ⟨fun hp => ?_, fun _ hm => ?_, trivial, trivial, trivial⟩
  · exact absurd hp (by decide +kernel)
  · exact absurd hm (by decide +kernel)

end Wamp.Wildcard
