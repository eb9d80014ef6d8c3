import Verif.Spec.Files
import Verif.Props.Registry
import Verif.Props.ParserTotal

/-! C60: loading templates from files. -/

namespace Bracket.Props
open Spec

theorem rsplitDot_none {s : Str} : rsplitDot s = none ↔ '.' ∉ s := by
  induction s with
  | nil => simp [rsplitDot]
  | cons c s ih =>
      rw [rsplitDot]
      cases h : rsplitDot s with
      | some x =>
          obtain ⟨a, b⟩ := x
          rw [h] at ih
          simp only [reduceCtorEq, false_iff, Decidable.not_not] at ih ⊢
          exact List.mem_cons_of_mem _ ih
      | none =>
          rw [h] at ih
          simp only [true_iff] at ih
          by_cases hc : c = '.'
          · subst hc; simp
          · simp [hc, ih, Ne.symm hc]

theorem rsplitDot_some {s a b : Str} : rsplitDot s = some (a, b) ↔ s = a ++ '.' :: b ∧ '.' ∉ b := by
  induction s generalizing a with
  | nil => simp [rsplitDot]
  | cons c s ih =>
      rw [rsplitDot]
      cases h : rsplitDot s with
      | some x =>
          obtain ⟨a', b'⟩ := x
          have h' := (ih (a := a')).1
          rw [h] at ih
          simp only [Option.some.injEq, Prod.mk.injEq] at ih ⊢
          constructor
          · rintro ⟨rfl, rfl⟩
            obtain ⟨h1, h2⟩ := ih.1 ⟨rfl, rfl⟩
            exact ⟨by rw [h1]; rfl, h2⟩
          · rintro ⟨h1, h2⟩
            cases a with
            | nil =>
                simp only [List.nil_append, List.cons.injEq] at h1
                have := rsplitDot_none.2 (h1.2 ▸ h2)
                rw [h] at this
                cases this
            | cons d a =>
                simp only [List.cons_append, List.cons.injEq] at h1
                obtain ⟨rfl, rfl⟩ := (ih (a := a)).2 ⟨h1.2, h2⟩
                exact ⟨by rw [h1.1], rfl⟩
      | none =>
          have hs := rsplitDot_none.1 h
          by_cases hc : c = '.'
          · subst hc
            simp only [if_true, Option.some.injEq, Prod.mk.injEq]
            constructor
            · rintro ⟨rfl, rfl⟩; exact ⟨rfl, hs⟩
            · rintro ⟨h1, h2⟩
              cases a with
              | nil => simp only [List.nil_append, List.cons.injEq] at h1; exact ⟨rfl, h1.2⟩
              | cons d a =>
                  simp only [List.cons_append, List.cons.injEq] at h1
                  exact absurd (h1.2 ▸ by simp) hs
          · rw [if_neg hc]
            simp only [reduceCtorEq, false_iff, not_and]
            intro h1 h2
            cases a with
            | nil => simp only [List.nil_append, List.cons.injEq] at h1; exact hc h1.1
            | cons d a =>
                simp only [List.cons_append, List.cons.injEq] at h1
                exact hs (h1.2 ▸ by simp)

/-- **C60**: the extension and the stem of a file name. -/
theorem C60_names (name stem ext : Str) : Named name stem ext ↔ fileExt name = some ext ∧ fileStem name = stem := by
  unfold Named fileExt fileStem
  constructor
  · rintro ⟨h1, h2, h3⟩
    have := rsplitDot_some.2 ⟨h1, h2⟩
    cases stem with
    | nil => exact absurd rfl h3
    | cons c stem => simp [this]
  · rintro ⟨h1, h2⟩
    split at h1
    · rename_i c st e h
      rw [h] at h2
      cases h1
      simp only at h2
      subst h2
      obtain ⟨g1, g2⟩ := rsplitDot_some.1 h
      exact ⟨g1, g2, by simp⟩
    · cases h1

section
variable [Host]

/-- **C60**: `read_dir` does what `Reads` says, for any file system, directory and registry. -/
theorem C60_read_dir (fs : Fs) (ext : Str) (es : List (Except IoErr DirEntry)) (r : Reg) :
    Reads fs ext r.get es (Reg.readDir fs ext es r).1 (Reg.readDir fs ext es r).2.get := by
  induction es generalizing r with
  | nil => exact .done
  | cons x es ih =>
      cases x with
      | error x => exact .entry
      | ok e =>
          rw [Reg.readDir]
          by_cases hm : (e.isFile && fileExt e.name == some ext) = true
          · rw [if_pos hm]
            simp only [Bool.and_eq_true, beq_iff_eq] at hm
            have hM : Matching ext e (fileStem e.name) := ⟨hm.1, (C60_names _ _ _).2 ⟨hm.2, rfl⟩⟩
            unfold Reg.add
            cases hf : fs e.path with
            | error x => exact .unreadable hM hf
            | ok src =>
                dsimp only
                cases hc : compileTemplate src ⟨e.path, 0, 0⟩ with
                | ok t =>
                    have hg : Reg.get { r with templates := assocInsert (fileStem e.name) t r.templates } = TMap.set r.get (fileStem e.name) t := by
                      funext n
                      simp only [Reg.get, TMap.set]
                      split
                      · rename_i h; subst h; exact assoc_insert_self _ _ _
                      · rename_i h; exact assoc_insert_ne _ _ h
                    have := ih { r with templates := assocInsert (fileStem e.name) t r.templates }
                    rw [hg] at this
                    exact .file hM hf hc this
                | err x => exact .bad hM hf hc
                | panic => exact .panics hM hf hc
                | fuel =>
                    unfold compileTemplate at hc
                    split at hc
                    all_goals first | cases hc | skip
                    rename_i h
                    exact absurd h (C03_compile _ _)
          · rw [if_neg hm]
            refine .skip (fun st h => hm ?_) (ih r)
            simp [h.1, ((C60_names _ _ _).1 h.2).1]

omit [Host] in
theorem matching_unique {ext : Str} {e : DirEntry} {a b : Str} (h : Matching ext e a) (h' : Matching ext e b) : a = b :=
  ((C60_names _ _ _).1 h.2).2.symm.trans ((C60_names _ _ _).1 h'.2).2

/-- **C60**: what `Reads` says determines the outcome. -/
theorem C60_deterministic {fs : Fs} {ext : Str} {m m1 m2 : TMap} {es : List (Except IoErr DirEntry)} {a1 a2 : Out Unit}
    (h1 : Reads fs ext m es a1 m1) (h2 : Reads fs ext m es a2 m2) : a1 = a2 ∧ m1 = m2 := by
  induction h1 with
  | done => cases h2; exact ⟨rfl, rfl⟩
  | entry => cases h2; exact ⟨rfl, rfl⟩
  | skip h _ ih =>
      cases h2 with
      | skip _ hr => exact ih hr
      | file h' => exact absurd h' (h _)
      | unreadable h' => exact absurd h' (h _)
      | bad h' => exact absurd h' (h _)
      | panics h' => exact absurd h' (h _)
  | file h hf hc _ ih =>
      cases h2 with
      | skip h' => exact absurd h (h' _)
      | file h' hf' hc' hr =>
          obtain rfl := matching_unique h h'
          rw [hf] at hf'; cases hf'
          rw [hc] at hc'; cases hc'
          exact ih hr
      | unreadable _ hf' => rw [hf] at hf'; cases hf'
      | bad _ hf' hc' => rw [hf] at hf'; cases hf'; rw [hc] at hc'; cases hc'
      | panics _ hf' hc' => rw [hf] at hf'; cases hf'; rw [hc] at hc'; cases hc'
  | unreadable h hf =>
      cases h2 with
      | skip h' => exact absurd h (h' _)
      | file _ hf' => rw [hf] at hf'; cases hf'
      | unreadable _ hf' => rw [hf] at hf'; cases hf'; exact ⟨rfl, rfl⟩
      | bad _ hf' => rw [hf] at hf'; cases hf'
      | panics _ hf' => rw [hf] at hf'; cases hf'
  | bad h hf hc =>
      cases h2 with
      | skip h' => exact absurd h (h' _)
      | file _ hf' hc' => rw [hf] at hf'; cases hf'; rw [hc] at hc'; cases hc'
      | unreadable _ hf' => rw [hf] at hf'; cases hf'
      | bad _ hf' hc' => rw [hf] at hf'; cases hf'; rw [hc] at hc'; cases hc'; exact ⟨rfl, rfl⟩
      | panics _ hf' hc' => rw [hf] at hf'; cases hf'; rw [hc] at hc'; cases hc'
  | panics h hf hc =>
      cases h2 with
      | skip h' => exact absurd h (h' _)
      | file _ hf' hc' => rw [hf] at hf'; cases hf'; rw [hc] at hc'; cases hc'
      | unreadable _ hf' => rw [hf] at hf'; cases hf'
      | bad _ hf' hc' => rw [hf] at hf'; cases hf'; rw [hc] at hc'; cases hc'
      | panics => exact ⟨rfl, rfl⟩

theorem reads_others {fs : Fs} {ext : Str} {m m' : TMap} {es : List (Except IoErr DirEntry)} {a : Out Unit} (h : Reads fs ext m es a m')
    {name : Str} (hn : ∀ e, .ok e ∈ es → ¬ Matching ext e name) : m' name = m name := by
  induction h with
  | done => rfl
  | entry => rfl
  | skip _ _ ih => exact ih fun e he => hn e (List.mem_cons_of_mem _ he)
  | @file _ _ e st _ _ _ _ h _ _ _ ih =>
      rw [ih fun e he => hn e (List.mem_cons_of_mem _ he)]
      unfold TMap.set
      rw [if_neg]
      rintro rfl
      exact hn e (List.mem_cons_self ..) h
  | unreadable => rfl
  | bad => rfl
  | panics => rfl

/-- **C60**: whatever `read_dir` answers, names that are not the stem of a file with the extension are as
they were. -/
theorem C60_others (fs : Fs) (ext : Str) (es : List (Except IoErr DirEntry)) (r : Reg) (name : Str)
    (hn : ∀ e, .ok e ∈ es → ¬ Matching ext e name) : (Reg.readDir fs ext es r).2.get name = r.get name :=
  reads_others (C60_read_dir fs ext es r) hn

theorem reads_found {fs : Fs} {ext : Str} {e : DirEntry} {st : Str} (he : Matching ext e st) : ∀ {before after : List (Except IoErr DirEntry)}
    {m m' : TMap}, Reads fs ext m (before ++ .ok e :: after) (.ok ()) m' → (∀ f, .ok f ∈ after → ¬ Matching ext f st) →
    ∃ src t, fs e.path = .ok src ∧ compileTemplate src ⟨e.path, 0, 0⟩ = .ok t ∧ m' st = some t
  | [], after, m, m', h, hn => by
      cases h with
      | skip h => exact absurd he (h _)
      | file h hf hc hr =>
          obtain rfl := matching_unique h he
          exact ⟨_, _, hf, hc, by rw [reads_others hr hn]; simp [TMap.set]⟩
  | x :: before, after, m, m', h, hn => by
      cases h with
      | skip _ hr => exact reads_found he hr hn
      | file _ _ _ hr => exact reads_found he hr hn

/-- **C60**: when `read_dir` succeeds, every file with the extension has been read, compiled and registered
under its stem (the last one, if several have that stem). -/
theorem C60_found (fs : Fs) (ext : Str) (before after : List (Except IoErr DirEntry)) (e : DirEntry) (st : Str) (r : Reg)
    (he : Matching ext e st) (hn : ∀ f, .ok f ∈ after → ¬ Matching ext f st)
    (hok : (Reg.readDir fs ext (before ++ .ok e :: after) r).1 = .ok ()) :
    ∃ src t, fs e.path = .ok src ∧ compileTemplate src ⟨e.path, 0, 0⟩ = .ok t ∧
      (Reg.readDir fs ext (before ++ .ok e :: after) r).2.get st = some t := by
  have := C60_read_dir fs ext (before ++ .ok e :: after) r
  rw [hok] at this
  exact reads_found he this hn

/-- **C60**: `load` registers a file under its path, and nothing else changes; if it fails, nothing changes. -/
theorem C60_load (fs : Fs) (r : Reg) (file : Str) :
    (∀ src t, fs file = .ok src → compileTemplate src ⟨file, 0, 0⟩ = .ok t →
      (r.load fs file).1 = .ok () ∧ (r.load fs file).2.get = TMap.set r.get file t) ∧
    ((r.load fs file).1 ≠ .ok () → (r.load fs file).2 = r) := by
  refine ⟨fun src t h1 h2 => ?_, fun h => (C35_failed_insert fs r file [] file).2 h⟩
  have := regStep_refines fs r (.add file file)
  simp only [regStep, mapStep, produced, h1, h2] at this
  refine ⟨?_, this.2⟩
  have h := this.1
  injection h

end

/-! ### Examples -/

section
attribute [local instance] exHost

/-- A directory with two templates, another file, a hidden file and a subdirectory. -/
def exDir : List (Except IoErr DirEntry) :=
  [.ok ⟨c!"d/a.html", c!"a.html", true⟩, .ok ⟨c!"d/b.txt", c!"b.txt", true⟩, .ok ⟨c!"d/.html", c!".html", true⟩,
   .ok ⟨c!"d/sub.html", c!"sub.html", false⟩, .ok ⟨c!"d/c.min.html", c!"c.min.html", true⟩]
def exFiles : Fs := fun f => if f = c!"d/a.html" ∨ f = c!"d/c.min.html" then .ok c!"<p>{{x}}</p>" else .error ⟨2⟩

example : (match (Reg.readDir exFiles c!"html" exDir Reg.new).1 with | .ok _ => true | _ => false) = true ∧
    (Reg.readDir exFiles c!"html" exDir Reg.new).2.templates.map (·.1) = [c!"a", c!"c.min"] := by decide +kernel
example : Matching c!"html" ⟨c!"d/c.min.html", c!"c.min.html", true⟩ c!"c.min" := ⟨rfl, (C60_names _ _ _).2 (by decide)⟩
example : (match (Reg.readDir exFiles c!"txt" exDir Reg.new).1 with | .err (.io _) => true | _ => false) = true := by decide +kernel
end

end Bracket.Props
