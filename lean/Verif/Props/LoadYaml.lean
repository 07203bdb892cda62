import Verif.Model.LoadYaml
import Mathlib.Tactic.SplitIfs
import Mathlib.Tactic.Push

/-!
# Property C59: the failure contract of `loadyaml`
-/

namespace Coralign.Props

open Coralign

variable {E H D : Type}

/-! ### Specification -/

/-- The first thing that goes wrong: opening, or else closing, or else reading, decoding and parsing.  (If both loading and closing
fail, Python reports the closing.) -/
def Fails (env : FileEnv E H D) (e : E) : Prop :=
  env.openFile = .error e ∨
  ∃ h, env.openFile = .ok h ∧ (env.close h = .error e ∨ ((∃ u, env.close h = .ok u) ∧ env.load h = .error e))

/-- The document is there: opened, parsed and closed. -/
def Parses (env : FileEnv E H D) (d : D) : Prop :=
  ∃ h, env.openFile = .ok h ∧ env.load h = .ok d ∧ ∃ u, env.close h = .ok u

/-- Exceptions of the three anticipated classes. -/
def Anticipated (cls : ExcClasses E) (e : E) : Prop :=
  cls.isIOError e = true ∨ cls.isYAMLError e = true ∨ cls.isUnicodeDecodeError e = true

/-! ### The property -/

theorem loadBody_cases (env : FileEnv E H D) :
    (∃ d, Parses env d ∧ loadBody env = ([.opened, .loaded, .closed], .ok d)) ∨
    (∃ e, Fails env e ∧ ∃ tr, loadBody env = (tr, .error e) ∧
      ((tr = [] ∧ env.openFile = .error e) ∨ (tr = [.opened, .loaded, .closed] ∧ ∃ h, env.openFile = .ok h))) := by
  unfold loadBody
  cases ho : env.openFile with
  | error e => exact Or.inr ⟨e, Or.inl ho, [], rfl, Or.inl ⟨rfl, rfl⟩⟩
  | ok h =>
    cases hc : env.close h with
    | error e => exact Or.inr ⟨e, Or.inr ⟨h, ho, Or.inl hc⟩, _, by simp only [hc], Or.inr ⟨rfl, h, rfl⟩⟩
    | ok u =>
      cases hl : env.load h with
      | error e => exact Or.inr ⟨e, Or.inr ⟨h, ho, Or.inr ⟨⟨u, hc⟩, hl⟩⟩, _, by simp only [hc, hl], Or.inr ⟨rfl, h, rfl⟩⟩
      | ok d => exact Or.inl ⟨d, ⟨h, ho, hl, u, hc⟩, by simp only [hc, hl]⟩

theorem fails_unique (env : FileEnv E H D) (e e' : E) (h : Fails env e) (h' : Fails env e') : e = e' := by
  rcases h with h | ⟨x, h, h2⟩ <;> rcases h' with h' | ⟨x', h', h2'⟩ <;> rw [h] at h'
  · cases h'; rfl
  · cases h'
  · cases h'
  · cases h'
    rcases h2 with h2 | ⟨⟨u, h2⟩, h3⟩ <;> rcases h2' with h2' | ⟨⟨u', h2'⟩, h3'⟩
    · rw [h2] at h2'; cases h2'; rfl
    · rw [h2] at h2'; cases h2'
    · rw [h2] at h2'; cases h2'
    · rw [h3] at h3'; cases h3'; rfl

theorem fails_not_parses (env : FileEnv E H D) (e : E) (d : D) (h : Fails env e) (h' : Parses env d) : False := by
  obtain ⟨x, h1, h2, u, h3⟩ := h'
  rcases h with h | ⟨x', h, h4⟩ <;> rw [h1] at h <;> cases h
  rcases h4 with h4 | ⟨-, h4⟩
  · rw [h3] at h4; cases h4
  · rw [h2] at h4; cases h4

/-- **C59.** `loadyaml` returns a document exactly when the file opens, parses and closes, and then it returns the parsed document. -/
theorem C59_returns (cls : ExcClasses E) (custom : String → E) (env : FileEnv E H D) (d : D) :
    (loadyaml cls custom env).2 = .ok d ↔ Parses env d := by
  rcases loadBody_cases env with ⟨d', hp, hb⟩ | ⟨e, hf, tr, hb, -⟩
  · unfold loadyaml
    rw [hb]
    simp only [Except.ok.injEq]
    constructor
    · rintro rfl; exact hp
    · rintro ⟨h, h1, h2, -⟩
      obtain ⟨h', h1', h2', -⟩ := hp
      rw [h1] at h1'; cases h1'
      rw [h2] at h2'; cases h2'; rfl
  · constructor
    · intro h
      unfold loadyaml at h
      rw [hb] at h
      simp only at h
      split_ifs at h
    · intro h
      exact (fails_not_parses env e d hf h).elim

/-- **C59.** If the file cannot be read, is not decodable or is not YAML, exactly the custom exception is raised, with the message
for a missing file in the first case and the message for invalid YAML in the others. -/
theorem C59_custom_exception (cls : ExcClasses E) (custom : String → E) (env : FileEnv E H D) (e : E) (hf : Fails env e)
    (ha : Anticipated cls e) :
    (loadyaml cls custom env).2 =
      .error (custom (if cls.isIOError e = true then "Config file does not exist." else "File is not valid YAML.")) := by
  rcases loadBody_cases env with ⟨d', hp, hb⟩ | ⟨e', hf', tr, hb, -⟩
  · exact (fails_not_parses env e d' hf hp).elim
  · obtain rfl := fails_unique env e e' hf hf'
    unfold loadyaml
    rw [hb]
    simp only
    by_cases h1 : cls.isIOError e = true
    · rw [if_pos h1, if_pos h1]
    rw [if_neg h1, if_neg h1]
    by_cases h2 : cls.isYAMLError e = true
    · rw [if_pos h2]
    rw [if_neg h2]
    have h3 : cls.isUnicodeDecodeError e = true := by
      rcases ha with h | h | h
      · exact absurd h h1
      · exact absurd h h2
      · exact h
    rw [if_pos h3]

/-- **C59.** Any other exception (for instance the `ValueError` PyYAML raises for an impossible date such as `2001-13-45`, or the one
`open` raises for a path containing a null character) is passed on unchanged: callers that expect only the custom exception are not
protected from it. -/
theorem C59_other_exceptions (cls : ExcClasses E) (custom : String → E) (env : FileEnv E H D) (e : E) (hf : Fails env e)
    (ha : ¬ Anticipated cls e) : (loadyaml cls custom env).2 = .error e := by
  rcases loadBody_cases env with ⟨d', hp, hb⟩ | ⟨e', hf', tr, hb, -⟩
  · exact (fails_not_parses env e d' hf hp).elim
  · obtain rfl := fails_unique env e e' hf hf'
    unfold loadyaml
    rw [hb]
    simp only
    unfold Anticipated at ha
    push Not at ha
    rw [if_neg ha.1, if_neg ha.2.1, if_neg ha.2.2]

/-- **C59.** Every outcome is one of the three above. -/
theorem C59_total (env : FileEnv E H D) : (∃ d, Parses env d) ∨ ∃ e, Fails env e := by
  rcases loadBody_cases env with ⟨d', hp, -⟩ | ⟨e', hf', -⟩
  · exact Or.inl ⟨d', hp⟩
  · exact Or.inr ⟨e', hf'⟩

/-- **C59.** Whatever happens, a file that was opened has been closed, once and last. -/
theorem C59_closes (cls : ExcClasses E) (custom : String → E) (env : FileEnv E H D) :
    ((∃ h, env.openFile = .ok h) → (loadyaml cls custom env).1 = [.opened, .loaded, .closed]) ∧
    ((∃ e, env.openFile = .error e) → (loadyaml cls custom env).1 = []) := by
  rcases loadBody_cases env with ⟨d', ⟨h, ho, -⟩, hb⟩ | ⟨e', hf', tr, hb, hc⟩
  · refine ⟨fun _ => ?_, fun ⟨e, he⟩ => by (rw [ho] at he; cases he)⟩
    unfold loadyaml
    rw [hb]
  · have : (loadyaml cls custom env).1 = tr := by
      unfold loadyaml
      rw [hb]
      simp only
      split_ifs <;> rfl
    rw [this]
    rcases hc with ⟨rfl, ho⟩ | ⟨rfl, h⟩
    · exact ⟨fun ⟨h, hh⟩ => by (rw [ho] at hh; cases hh), fun _ => rfl⟩
    · exact ⟨fun _ => rfl, fun ⟨e, he⟩ => by (rw [h.choose_spec] at he; cases he)⟩

/-- The classes of the model's exceptions. -/
def pyClasses : ExcClasses PyExc where
  isIOError e := decide (e = .ioError)
  isYAMLError e := decide (e = .yamlError)
  isUnicodeDecodeError e := decide (e = .unicodeDecodeError)

/-- A file with an impossible date. -/
def badDate : FileEnv PyExc Unit Unit := ⟨.ok (), fun _ => .error .valueError, fun _ => .ok ()⟩

example : Fails badDate .valueError ∧ ¬ Anticipated pyClasses .valueError ∧ (loadyaml pyClasses (fun _ => .user 1) badDate).2 = .error .valueError := by
  refine ⟨Or.inr ⟨(), rfl, Or.inr ⟨⟨(), rfl⟩, rfl⟩⟩, by simp [Anticipated, pyClasses], by rfl⟩

/-- A malformed file. -/
example : Fails (⟨.ok (), fun _ => .error .yamlError, fun _ => .ok ()⟩ : FileEnv PyExc Unit Unit) .yamlError ∧
    Anticipated pyClasses .yamlError := ⟨Or.inr ⟨(), rfl, Or.inr ⟨⟨(), rfl⟩, rfl⟩⟩, by simp [Anticipated, pyClasses]⟩

end Coralign.Props
