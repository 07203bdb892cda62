import Verif.Model.MatlabYaml
import Verif.Spec.SettingsFile
import Mathlib.Data.List.DropRight
import Mathlib.Data.List.Basic

/-!
# C93: the MATLAB reader of settings files
-/

namespace Coralign.Props

open Coralign Coralign.Spec Coralign.Matlab

theorem isSpace_white {c : Char} (h : White c) : isSpace c = true := by
  rcases h with h | h | h | h | h <;> subst h <;> decide

theorem white_of_isSpace {c : Char} (h : isSpace c = true) (hn : c ≠ '\n') : White c := by
  simp only [isSpace, Bool.or_eq_true, beq_iff_eq] at h
  unfold White
  tauto

theorem rdropWhile_append_all {α : Type} (p : α → Bool) (l d : List α) (h : ∀ x ∈ d, p x = true) :
    (l ++ d).rdropWhile p = l.rdropWhile p := by
  induction d using List.reverseRecOn generalizing l with
  | nil => simp
  | append_singleton d x ih =>
    rw [← List.append_assoc, List.rdropWhile_concat_pos _ _ _ (h x (by simp))]
    exact ih _ fun y hy => h y (by simp [hy])

theorem rdropWhile_append_cons {α : Type} (p : α → Bool) (l d : List α) (x : α) (h : p x = false) :
    (l ++ x :: d).rdropWhile p = l ++ x :: d.rdropWhile p := by
  induction d using List.reverseRecOn with
  | nil => rw [List.rdropWhile_concat_neg _ _ _ (by simp [h])]; simp
  | append_singleton d y ih =>
    have : l ++ x :: (d ++ [y]) = (l ++ x :: d) ++ [y] := by simp
    rw [this, List.rdropWhile_concat, List.rdropWhile_concat]
    split
    · exact ih
    · simp

theorem dropWhile_all_append {α : Type} (p : α → Bool) (c l : List α) (h : ∀ x ∈ c, p x = true) :
    (c ++ l).dropWhile p = l.dropWhile p := by
  induction c with
  | nil => rfl
  | cons a c ih =>
    rw [List.cons_append, List.dropWhile_cons, if_pos (h a (by simp))]
    exact ih fun x hx => h x (by simp [hx])

/-- Text without white space at its ends. -/
def Trimmed (v : List Char) : Prop := (∀ x ∈ v.head?, isSpace x = false) ∧ (∀ x ∈ v.getLast?, isSpace x = false)

theorem strtrim_pad (c v d : List Char) (hc : ∀ x ∈ c, isSpace x = true) (hd : ∀ x ∈ d, isSpace x = true) (hv : Trimmed v) :
    strtrim (c ++ (v ++ d)) = v := by
  unfold strtrim
  rw [dropWhile_all_append _ _ _ hc]
  cases v with
  | nil =>
    rw [List.nil_append]
    have : d.dropWhile isSpace = [] := List.dropWhile_eq_nil_iff.mpr hd
    rw [this]; rfl
  | cons a v =>
    have ha : isSpace a = false := hv.1 a (by simp)
    rw [List.cons_append, List.dropWhile_cons, if_neg (by simp [ha]), ← List.cons_append, rdropWhile_append_all _ _ _ hd]
    rw [List.rdropWhile_eq_self_iff]
    intro hl
    have := hv.2 ((a :: v).getLast hl) (by rw [List.getLast?_eq_getLast_of_ne_nil hl]; simp)
    simp [this]

theorem takeWhile_stop {α : Type} (p : α → Bool) (l r : List α) (x : α) (hl : ∀ y ∈ l, p y = true) (hx : p x = false) :
    (l ++ x :: r).takeWhile p = l := by
  induction l with
  | nil => simp [hx]
  | cons a l ih =>
    rw [List.cons_append, List.takeWhile_cons, if_pos (hl a (by simp)), ih fun y hy => hl y (by simp [hy])]

theorem dropWhile_stop {α : Type} (p : α → Bool) (l r : List α) (x : α) (hl : ∀ y ∈ l, p y = true) (hx : p x = false) :
    (l ++ x :: r).dropWhile p = x :: r := by
  rw [dropWhile_all_append p l _ hl]; simp [hx]

theorem white_ne {x : Char} (h : White x) : x ≠ ':' ∧ x ≠ '#' ∧ x ≠ '\n' := by
  rcases h with h | h | h | h | h <;> subst h <;> decide

theorem name_ne_special {N : Type} (env : YamlEnv N) {k : List Char} (h : env.validName k = true) {x : Char} (hx : x ∈ k) :
    x ≠ ':' ∧ x ≠ '#' ∧ x ≠ '\n' ∧ isSpace x = false := by
  have := env.name_chars k h x hx
  by_contra hcon
  have h2 : x = ':' ∨ x = '#' ∨ x = '\n' ∨ isSpace x = true := by
    by_contra h3
    push Not at h3
    exact hcon ⟨h3.1, h3.2.1, h3.2.2.1, by simpa using h3.2.2.2⟩
  rcases h2 with h2 | h2 | h2 | h2
  · subst h2; revert this; decide
  · subst h2; revert this; decide
  · subst h2; revert this; decide
  · simp only [isSpace, Bool.or_eq_true, beq_iff_eq] at h2
    rcases h2 with ((((h2 | h2) | h2) | h2) | h2) | h2 <;> subst h2 <;> revert this <;> decide

theorem name_trimmed {N : Type} (env : YamlEnv N) {k : List Char} (h : env.validName k = true) : Trimmed k :=
  ⟨fun _ hx => (name_ne_special env h (List.mem_of_mem_head? hx)).2.2.2, fun _ hx =>
    (name_ne_special env h (List.mem_of_mem_getLast? hx)).2.2.2⟩

/-- A line with a setting is taken apart correctly. -/
theorem splitLine_setting {N : Type} (env : YamlEnv N) (a key b c value d : List Char) (r : Option (List Char))
    (hg : (SettingsLine.setting a key b c value d r).Good env.validName) :
    ∃ line, deblank (SettingsLine.text (.setting a key b c value d r)) = line ∧ line ≠ [] ∧ line.head? ≠ some '#' ∧
      splitLine line = (key, value) := by
  obtain ⟨ha, hb, hc, hd, hk, hvn, hvh, hv1, hv2, hr⟩ := hg.setting a key b c value d r rfl
  have hpre : ∀ y ∈ a ++ (key ++ b), (decide (y ≠ ':')) = true := by
    intro y hy
    simp only [List.mem_append] at hy
    rcases hy with hy | hy | hy
    · simpa using (white_ne (ha y hy)).1
    · simpa using (name_ne_special env hk hy).1
    · simpa using (white_ne (hb y hy)).1
  have hpre2 : ∀ y ∈ a ++ (key ++ b), y ≠ '#' := by
    intro y hy
    simp only [List.mem_append] at hy
    rcases hy with hy | hy | hy
    · exact (white_ne (ha y hy)).2.1
    · exact (name_ne_special env hk hy).2.1
    · exact (white_ne (hb y hy)).2.1
  have hne : a ++ (key ++ b) ≠ [] := by
    intro h0
    simp only [List.append_eq_nil_iff] at h0
    rw [h0.2.1, env.name_ne] at hk
    cases hk
  have htrim : strtrim (a ++ (key ++ b)) = key :=
    strtrim_pad a key b (fun x hx => isSpace_white (ha x hx)) (fun x hx => isSpace_white (hb x hx)) (name_trimmed env hk)
  have hvt : Trimmed value := by
    constructor
    · intro x hx
      by_contra h0
      have h0 : isSpace x = true := by simpa using h0
      refine hv1 x hx (white_of_isSpace h0 ?_)
      rintro rfl
      exact hvn (List.mem_of_mem_head? hx)
    · intro x hx
      by_contra h0
      have h0 : isSpace x = true := by simpa using h0
      refine hv2 x hx (white_of_isSpace h0 ?_)
      rintro rfl
      exact hvn (List.mem_of_mem_getLast? hx)
  have hvc : ∀ y ∈ c ++ (value ++ d), (decide (y ≠ '#')) = true := by
    intro y hy
    simp only [List.mem_append] at hy
    rcases hy with hy | hy | hy
    · simpa using (white_ne (hc y hy)).2.1
    · simp only [ne_eq, decide_not, Bool.not_eq_eq_eq_not, Bool.not_true, decide_eq_false_iff_not]
      rintro rfl; exact hvh hy
    · simpa using (white_ne (hd y hy)).2.1
  -- everything after the colon
  have key' : ∀ rest : List Char, strtrim ((deblank rest).takeWhile (· ≠ '#')) = value →
      ∃ line, deblank (a ++ (key ++ (b ++ ':' :: rest))) = line ∧ line ≠ [] ∧ line.head? ≠ some '#' ∧ splitLine line = (key, value) := by
    intro rest hrest
    refine ⟨(a ++ (key ++ b)) ++ ':' :: deblank rest, ?_, by simp, ?_, ?_⟩
    · unfold deblank
      rw [← rdropWhile_append_cons isSpace _ rest ':' (by decide)]
      simp
    · cases hp : a ++ (key ++ b) with
      | nil => exact absurd hp hne
      | cons x xs =>
        simp only [List.cons_append, List.head?_cons, ne_eq, Option.some.injEq]
        exact hpre2 x (by rw [hp]; simp)
    · unfold splitLine
      rw [if_pos (by simp), takeWhile_stop _ _ _ _ hpre (by decide), dropWhile_stop _ _ _ _ hpre (by decide), htrim, List.tail_cons, hrest]
  cases r with
  | none =>
    refine key' (c ++ (value ++ d)) ?_
    have h1 : deblank (c ++ (value ++ d)) = deblank (c ++ value) := by
      unfold deblank
      rw [← List.append_assoc, rdropWhile_append_all _ _ _ fun x hx => isSpace_white (hd x hx)]
    have h2 : (deblank (c ++ value)).takeWhile (· ≠ '#') = deblank (c ++ value) := by
      rw [List.takeWhile_eq_self_iff]
      intro x hx
      refine hvc x ?_
      have := (List.rdropWhile_prefix isSpace (l := c ++ value)).subset hx
      simp only [List.mem_append] at this ⊢
      tauto
    rw [h1, h2]
    cases hval : value with
    | nil =>
      have : deblank (c ++ []) = [] := by
        unfold deblank
        rw [List.rdropWhile_eq_nil_iff]
        intro x hx
        exact isSpace_white (hc x (by simpa using hx))
      rw [this]; rfl
    | cons v vs =>
      have : deblank (c ++ (v :: vs)) = c ++ (v :: vs) := by
        unfold deblank
        rw [List.rdropWhile_eq_self_iff]
        intro hl
        rw [List.getLast_append_of_ne_nil _ (by simp)]
        have := hvt.2 ((v :: vs).getLast (by simp)) (by rw [hval, List.getLast?_eq_getLast_of_ne_nil (by simp)]; simp)
        simp [this]
      rw [this]
      have := strtrim_pad c (v :: vs) [] (fun x hx => isSpace_white (hc x hx)) (by simp) (hval ▸ hvt)
      simpa using this
  | some t =>
    refine key' (c ++ (value ++ (d ++ '#' :: t))) ?_
    have h1 : deblank (c ++ (value ++ (d ++ '#' :: t))) = (c ++ (value ++ d)) ++ '#' :: deblank t := by
      unfold deblank
      rw [← rdropWhile_append_cons isSpace _ t '#' (by decide)]
      simp
    rw [h1, takeWhile_stop _ _ _ _ hvc (by decide)]
    exact strtrim_pad c value d (fun x hx => isSpace_white (hc x hx)) (fun x hx => isSpace_white (hd x hx)) hvt

theorem lookup_setField {N : Type} (key k : List Char) (v : Value N) (res : List (List Char × Value N)) :
    (setField key v res).lookup k = if key = k then some v else res.lookup k := by
  induction res with
  | nil =>
    by_cases h : key = k
    · subst h; simp [setField]
    · have h' : (k == key) = false := by simpa using fun e : k = key => h e.symm
      simp [setField, List.lookup, h', h]
  | cons p rest ih =>
    obtain ⟨k', w⟩ := p
    unfold setField
    by_cases h : k' = key
    · subst h
      rw [if_pos rfl]
      by_cases h2 : k' = k
      · subst h2; simp
      · have h' : (k == k') = false := by simpa using fun e : k = k' => h2 e.symm
        simp [List.lookup, h', h2]
    · rw [if_neg h]
      by_cases h2 : k' = k
      · subst h2
        rw [if_neg (fun e => h e.symm)]
        simp
      · have h' : (k == k') = false := by simpa using fun e : k = k' => h2 e.symm
        simp only [List.lookup, h']
        exact ih

/-- The names of the fields of a structure are different. -/
theorem keys_setField {N : Type} (key : List Char) (v : Value N) (res : List (List Char × Value N)) :
    ((setField key v res).map Prod.fst) = if key ∈ res.map Prod.fst then res.map Prod.fst else res.map Prod.fst ++ [key] := by
  induction res with
  | nil => simp [setField]
  | cons p rest ih =>
    obtain ⟨k', w⟩ := p
    unfold setField
    by_cases h : k' = key
    · subst h; simp
    · rw [if_neg h]
      simp only [List.map_cons, ih, List.mem_cons]
      have h' : ¬ key = k' := fun e => h e.symm
      by_cases h2 : key ∈ rest.map Prod.fst
      · simp only [if_pos h2, if_pos (Or.inr h2 : key = k' ∨ _)]
      · rw [if_neg h2, if_neg (by tauto)]; simp

theorem good_no_newline {N : Type} (env : YamlEnv N) (l : SettingsLine) (h : l.Good env.validName) : '\n' ∉ l.text := by
  intro hn
  cases l with
  | empty s => exact (white_ne (h.empty s rfl _ hn)).2.2 rfl
  | remark t =>
    simp only [SettingsLine.text, List.mem_cons] at hn
    rcases hn with hn | hn
    · exact absurd hn (by decide)
    · exact h.remark t rfl hn
  | setting a key b c value d r =>
    obtain ⟨ha, hb, hc, hd, hk, hvn, hvh, hv1, hv2, hr⟩ := h.setting a key b c value d r rfl
    cases r with
    | none =>
      simp only [SettingsLine.text, List.mem_append, List.mem_cons] at hn
      rcases hn with hn | hn | hn | hn | hn | hn | hn
      · exact (white_ne (ha _ hn)).2.2 rfl
      · exact (name_ne_special env hk hn).2.2.1 rfl
      · exact (white_ne (hb _ hn)).2.2 rfl
      · exact absurd hn (by decide)
      · exact (white_ne (hc _ hn)).2.2 rfl
      · exact hvn hn
      · exact (white_ne (hd _ hn)).2.2 rfl
    | some t =>
      simp only [SettingsLine.text, List.mem_append, List.mem_cons] at hn
      rcases hn with hn | hn | hn | hn | hn | hn | hn | hn | hn
      · exact (white_ne (ha _ hn)).2.2 rfl
      · exact (name_ne_special env hk hn).2.2.1 rfl
      · exact (white_ne (hb _ hn)).2.2 rfl
      · exact absurd hn (by decide)
      · exact (white_ne (hc _ hn)).2.2 rfl
      · exact hvn hn
      · exact (white_ne (hd _ hn)).2.2 rfl
      · exact absurd hn (by decide)
      · exact hr t rfl hn

/-- The reader folds over the lines. -/
theorem readYaml_lines {N : Type} (env : YamlEnv N) (ls : List (List Char)) (h : ∀ l ∈ ls, '\n' ∉ l) :
    readYaml env (['\n'].intercalate ls) = ((ls.map deblank).filter (· ≠ [])).foldlM (readLine env) [] := by
  unfold readYaml
  by_cases h0 : ls = []
  · subst h0
    simp only [List.intercalate, List.intersperse, List.flatten, List.splitOn_nil]
    simp [deblank]
  · rw [List.splitOn_intercalate _ h h0]

/-- What the lines of a file do to the fields read so far. -/
theorem fold_good {N : Type} (env : YamlEnv N) (f : List SettingsLine) (hf : ∀ l ∈ f, l.Good env.validName)
    (res : List (List Char × Value N)) :
    ∃ out, (((f.map SettingsLine.text).map deblank).filter (· ≠ [])).foldlM (readLine env) res = some out ∧
      ∀ key, out.lookup key = match lastValue key (settings f) with
        | some v => some (convert env v)
        | none => res.lookup key := by
  induction f generalizing res with
  | nil => exact ⟨res, rfl, fun key => rfl⟩
  | cons l rest ih =>
    have hrest : ∀ l ∈ rest, l.Good env.validName := fun x hx => hf x (by simp [hx])
    have hl := hf l (by simp)
    cases l with
    | empty s =>
      have : deblank s = [] := by
        unfold deblank
        rw [List.rdropWhile_eq_nil_iff]
        exact fun x hx => isSpace_white (hl.empty s rfl x hx)
      obtain ⟨out, e, ho⟩ := ih hrest res
      refine ⟨out, ?_, ho⟩
      rw [List.map_cons, List.map_cons, List.filter_cons, if_neg (by simp [SettingsLine.text, this])]
      exact e
    | remark t =>
      have : deblank ('#' :: t) = '#' :: deblank t := by
        have := rdropWhile_append_cons isSpace [] t '#' (by decide)
        simpa [deblank] using this
      obtain ⟨out, e, ho⟩ := ih hrest res
      refine ⟨out, ?_, ho⟩
      rw [List.map_cons, List.map_cons, List.filter_cons, if_pos (by simp [SettingsLine.text, this]), List.foldlM_cons]
      simp only [SettingsLine.text, this, readLine, List.head?_cons, if_true]
      exact e
    | setting a key b c value d r =>
      obtain ⟨line, e1, e2, e3, e4⟩ := splitLine_setting env a key b c value d r hl
      obtain ⟨-, -, -, -, hk, -⟩ := hl.setting a key b c value d r rfl
      obtain ⟨out, e, ho⟩ := ih hrest (setField key (convert env value) res)
      refine ⟨out, ?_, fun k => ?_⟩
      · rw [List.map_cons, List.map_cons, List.filter_cons, if_pos (by simp [e1, e2]), List.foldlM_cons, e1]
        simp only [readLine, e3, if_false, e4, hk, if_true]
        exact e
      · rw [ho k]
        simp only [settings, lastValue]
        cases lastValue k (settings rest) with
        | some w => rfl
        | none =>
          simp only [lookup_setField]
          split <;> rfl

/-- **C93 (partial).** A file of empty lines, remarks starting in the first column and settings is read without error, and every key has the
value of its last setting, converted to a number where MATLAB can; keys that are not set are absent.  White space, empty lines and remarks
play no part. -/
theorem C93_reads_partial {N : Type} (env : YamlEnv N) (f : List SettingsLine) (hf : ∀ l ∈ f, l.Good env.validName) :
    ∃ out, readYaml env (fileText f) = some out ∧
      ∀ key, out.lookup key = (lastValue key (settings f)).map (convert env) := by
  unfold fileText
  rw [readYaml_lines env _ (by
    intro l hl
    obtain ⟨x, hx, rfl⟩ := List.mem_map.mp hl
    exact good_no_newline env x (hf x hx))]
  obtain ⟨out, e, ho⟩ := fold_good env f hf []
  refine ⟨out, e, fun key => ?_⟩
  rw [ho key]
  cases lastValue key (settings f) <;> rfl

theorem lastValue_mem {key v : List Char} : ∀ {s : List (List Char × List Char)}, lastValue key s = some v → (key, v) ∈ s := by
  intro s
  induction s with
  | nil => intro h; cases h
  | cons p rest ih =>
    obtain ⟨k, w⟩ := p
    intro h
    unfold lastValue at h
    cases hr : lastValue key rest with
    | some u => rw [hr] at h; simp only [Option.some.injEq] at h; subst h; exact List.mem_cons_of_mem _ (ih hr)
    | none =>
      rw [hr] at h
      simp only at h
      split at h
      · rename_i hk; subst hk; simp only [Option.some.injEq] at h; subst h; exact List.mem_cons_self
      · cases h

theorem lastValue_of_mem {key v : List Char} : ∀ {s : List (List Char × List Char)}, (s.map Prod.fst).Nodup → (key, v) ∈ s →
    lastValue key s = some v := by
  intro s
  induction s with
  | nil => intro _ h; cases h
  | cons p rest ih =>
    obtain ⟨k, w⟩ := p
    intro hn h
    rw [List.map_cons, List.nodup_cons] at hn
    unfold lastValue
    rcases List.mem_cons.mp h with h | h
    · cases h
      cases hr : lastValue key rest with
      | some u => exact absurd (List.mem_map.mpr ⟨_, lastValue_mem hr, rfl⟩) hn.1
      | none => simp
    · rw [ih hn.2 h]

/-- **C93.** When no key is set twice the order of the lines does not matter: two files making the same settings, in any order and with any
remarks and white space, are read to the same values. -/
theorem C93_order_partial {N : Type} (env : YamlEnv N) (f g : List SettingsLine) (hf : ∀ l ∈ f, l.Good env.validName)
    (hg : ∀ l ∈ g, l.Good env.validName) (hp : (settings f).Perm (settings g)) (hn : ((settings f).map Prod.fst).Nodup) :
    ∃ out out', readYaml env (fileText f) = some out ∧ readYaml env (fileText g) = some out' ∧ ∀ key, out.lookup key = out'.lookup key := by
  obtain ⟨out, e, ho⟩ := C93_reads_partial env f hf
  obtain ⟨out', e', ho'⟩ := C93_reads_partial env g hg
  refine ⟨out, out', e, e', fun key => ?_⟩
  rw [ho, ho']
  congr 1
  have hn' : ((settings g).map Prod.fst).Nodup := (hp.map Prod.fst).nodup_iff.mp hn
  cases h1 : lastValue key (settings f) with
  | some v => exact (lastValue_of_mem hn' (hp.mem_iff.mp (lastValue_mem h1))).symm
  | none =>
    cases h2 : lastValue key (settings g) with
    | none => rfl
    | some v =>
      rw [lastValue_of_mem hn (hp.mem_iff.mpr (lastValue_mem h2))] at h1
      cases h1

theorem foldlM_none {N : Type} (env : YamlEnv N) (ls : List (List Char)) (bad : List Char) (hb : bad ∈ ls)
    (h : ∀ res, readLine env res bad = none) (res : List (List Char × Value N)) : ls.foldlM (readLine env) res = none := by
  induction ls generalizing res with
  | nil => cases hb
  | cons l rest ih =>
    rw [List.foldlM_cons]
    rcases List.mem_cons.mp hb with e | e
    · rw [← e, h]; rfl
    · cases readLine env res l with
      | none => rfl
      | some r => exact ih e r

theorem bad_line {N : Type} (env : YamlEnv N) (ls : List (List Char)) (hn : ∀ l ∈ ls, '\n' ∉ l) (bad : List Char) (hb : bad ∈ ls)
    (h0 : deblank bad ≠ []) (h : ∀ res, readLine env res (deblank bad) = none) : readYaml env (['\n'].intercalate ls) = none := by
  rw [readYaml_lines env ls hn]
  refine foldlM_none env _ (deblank bad) ?_ h []
  rw [List.mem_filter]
  exact ⟨List.mem_map_of_mem hb, by simpa using h0⟩

/-- **C93, failure.** A remark that does not start in the first column makes the whole file unreadable, whatever the remark and whatever the
other lines. -/
theorem C93_indented_remark_fails {N : Type} (env : YamlEnv N) (ls : List (List Char)) (hn : ∀ l ∈ ls, '\n' ∉ l) (s t : List Char)
    (hs : s ≠ []) (hw : ∀ x ∈ s, White x) (hm : s ++ '#' :: t ∈ ls) : readYaml env (['\n'].intercalate ls) = none := by
  have hd : deblank (s ++ '#' :: t) = s ++ '#' :: deblank t := rdropWhile_append_cons isSpace s t '#' (by decide)
  refine bad_line env ls hn _ hm (by rw [hd]; simp) fun res => ?_
  rw [hd]
  unfold readLine
  rw [if_neg]
  · have : env.validName (splitLine (s ++ '#' :: deblank t)).1 = false := by
      by_contra hv
      have hv : env.validName (splitLine (s ++ '#' :: deblank t)).1 = true := by simpa using hv
      unfold splitLine at hv
      split at hv
      · have hall : ∀ x ∈ s, (decide (x ≠ ':')) = true := fun x hx => by simpa using (white_ne (hw x hx)).1
        have e1 : (s ++ '#' :: deblank t).takeWhile (· ≠ ':') = s ++ '#' :: (deblank t).takeWhile (· ≠ ':') := by
          rw [List.takeWhile_append_of_pos hall, List.takeWhile_cons, if_pos (by decide)]
        simp only [e1] at hv
        have hmem : '#' ∈ strtrim (s ++ '#' :: (deblank t).takeWhile (· ≠ ':')) := by
          unfold strtrim
          rw [dropWhile_stop _ _ _ _ (fun x hx => isSpace_white (hw x hx)) (by decide)]
          have := rdropWhile_append_cons isSpace [] ((deblank t).takeWhile (· ≠ ':')) '#' (by decide)
          rw [List.nil_append] at this
          rw [this]
          simp
        exact (name_ne_special env hv hmem).2.1 rfl
      · rw [env.name_ne] at hv; cases hv
    simp only [this]
    rfl
  · cases s with
    | nil => exact absurd rfl hs
    | cons x xs =>
      simp only [List.cons_append, List.head?_cons, Option.some.injEq]
      exact (white_ne (hw x (by simp))).2.1

/-- **C93, failure.** A line without a colon that is neither empty nor a remark makes the file unreadable. -/
theorem C93_no_colon_fails {N : Type} (env : YamlEnv N) (ls : List (List Char)) (hn : ∀ l ∈ ls, '\n' ∉ l) (bad : List Char) (hb : bad ∈ ls)
    (hx : ∃ x ∈ bad, ¬ White x) (hh : bad.head? ≠ some '#') (hc : ':' ∉ bad) : readYaml env (['\n'].intercalate ls) = none := by
  have hsub : ∀ x ∈ deblank bad, x ∈ bad := fun x hx => (List.rdropWhile_prefix isSpace (l := bad)).subset hx
  have h0 : deblank bad ≠ [] := by
    intro h0
    obtain ⟨x, hx, hxw⟩ := hx
    have := List.rdropWhile_eq_nil_iff.mp h0 x hx
    refine hxw (white_of_isSpace this ?_)
    rintro rfl
    exact hn bad hb hx
  refine bad_line env ls hn bad hb h0 fun res => ?_
  unfold readLine
  rw [if_neg]
  · have : splitLine (deblank bad) = ([], []) := by
      unfold splitLine
      rw [if_neg fun h => hc (hsub _ h)]
    simp only [this, env.name_ne]
    rfl
  · obtain ⟨w, hw⟩ := (List.rdropWhile_prefix isSpace (l := bad) : deblank bad <+: bad)
    intro h1
    apply hh
    cases hd : deblank bad with
    | nil => exact absurd hd h0
    | cons x xs =>
      rw [hd] at h1
      have hw : deblank bad ++ w = bad := hw
      rw [hd] at hw
      rw [← hw]
      simpa using h1

/-- A small environment: `str2num` reads strings of digits, and the field names are the texts of letters, digits and underscores. -/
def tinyEnv : YamlEnv ℕ where
  str2num s := if s ≠ [] ∧ s.all Char.isDigit then some (s.foldl (fun n c => 10 * n + (c.toNat - '0'.toNat)) 0) else none
  validName k := k ≠ [] ∧ k.all fun c => c.isAlphanum || c == '_'
  name_ne := by decide
  name_chars k h c hc := by
    simp only [decide_eq_true_eq] at h
    have := List.all_eq_true.mp h.2 c hc
    simpa using this

/-- A file with a remark, an empty line, a setting made twice and a value with a remark behind it. -/
def tinyFile : List SettingsLine :=
  [.remark " spots".toList, .setting [] "maxStep".toList [] [' '] "3".toList [] none, .empty [' '],
   .setting [] "mode".toList [' '] [' '] "a b".toList [' '] (some " text".toList),
   .setting [' '] "maxStep".toList [] [] "41".toList [] none]

theorem tinyFile_good : ∀ l ∈ tinyFile, l.Good tinyEnv.validName := by
  intro l hl
  simp only [tinyFile, List.mem_cons, List.not_mem_nil, or_false] at hl
  have hsp : ∀ x ∈ [' '], White x := by intro x hx; simp only [List.mem_singleton] at hx; exact Or.inl hx
  have hemp : ∀ x ∈ ([] : List Char), White x := fun x hx => by cases hx
  rcases hl with rfl | rfl | rfl | rfl | rfl
  · refine ⟨fun _ h => (by cases h), fun t h => ?_, fun _ _ _ _ _ _ _ h => (by cases h)⟩
    cases h; decide
  · refine ⟨fun _ h => (by cases h), fun _ h => (by cases h), fun _ _ _ _ _ _ _ h => ?_⟩
    cases h
    refine ⟨hemp, hemp, hsp, hemp, by decide, by decide, by decide, ?_, ?_, fun t h => by cases h⟩ <;>
    · intro x hx h; revert hx; rcases h with h | h | h | h | h <;> subst h <;> decide
  · refine ⟨fun s h => ?_, fun _ h => (by cases h), fun _ _ _ _ _ _ _ h => (by cases h)⟩
    cases h; exact hsp
  · refine ⟨fun _ h => (by cases h), fun _ h => (by cases h), fun _ _ _ _ _ _ _ h => ?_⟩
    cases h
    refine ⟨hemp, hsp, hsp, hsp, by decide, by decide, by decide, ?_, ?_, fun t h => by cases h; decide⟩ <;>
    · intro x hx h; revert hx; rcases h with h | h | h | h | h <;> subst h <;> decide
  · refine ⟨fun _ h => (by cases h), fun _ h => (by cases h), fun _ _ _ _ _ _ _ h => ?_⟩
    cases h
    refine ⟨hsp, hemp, hemp, hemp, by decide, by decide, by decide, ?_, ?_, fun t h => by cases h⟩ <;>
    · intro x hx h; revert hx; rcases h with h | h | h | h | h <;> subst h <;> decide

/-- The example file is read: the last `maxStep` counts, `mode` stays text. -/
example : ∃ out, readYaml tinyEnv (fileText tinyFile) = some out ∧ out.lookup "maxStep".toList = some (.num 41) ∧
    out.lookup "mode".toList = some (.text "a b".toList) ∧ out.lookup "other".toList = none := by
  obtain ⟨out, e, ho⟩ := C93_reads_partial tinyEnv tinyFile tinyFile_good
  exact ⟨out, e, (ho _).trans (by decide +kernel), (ho _).trans (by decide +kernel), (ho _).trans (by decide +kernel)⟩

example : fileText tinyFile = "# spots\nmaxStep: 3\n \nmode : a b # text\n maxStep:41".toList := by decide +kernel

/-- The two failures on concrete files. -/
example : readYaml tinyEnv (['\n'].intercalate ["a: 1".toList, "  # note".toList]) = none :=
  C93_indented_remark_fails tinyEnv _ (by decide) "  ".toList " note".toList (by decide)
    (by intro x hx; simp at hx; exact Or.inl hx) (by decide)

example : readYaml tinyEnv (['\n'].intercalate ["a: 1".toList, "- 2".toList]) = none :=
  C93_no_colon_fails tinyEnv _ (by decide) "- 2".toList (by decide) ⟨'-', by decide, by unfold White; decide⟩ (by decide) (by decide)

end Coralign.Props
