import Verif.Conf.Lemmas
/-
Lemmas about the option loop: it is the fold of the options that the command line means.
-/
namespace Conf
open Spec

/-- One option applied to the state. -/
def step (E : Env) (o : Opts) : Opt → Res Opts
  | .flag c => match flagOpt c o with
    | some o => .ok o
    | none => .exit 100
  | .arg c v => match argOpt E c with
    | some f => f v o
    | none => .exit 100

def fold (E : Env) (o : Opts) : List Opt → Res Opts
  | [] => .ok o
  | x :: l => match step E o x with
    | .ok o => fold E o l
    | .exit s => .exit s
    | .ub => .ub

theorem fold_append (E : Env) (o : Opts) (l m : List Opt) : fold E o (l ++ m) = match fold E o l with
    | .ok o => fold E o m
    | .exit s => .exit s
    | .ub => .ub := by
  induction l generalizing o with
  | nil => rfl
  | cons x l ih =>
    simp only [List.cons_append, fold]
    cases step E o x <;> simp [ih]

/-- The option is one of the known ones. -/
def Known : Opt → Prop
  | .flag c => c ∈ flags
  | .arg c v => c ∈ withArg ∧ NoNul v

theorem flagOpt_some {c : Byte} (o : Opts) (h : c ∈ flags) : ∃ o', flagOpt c o = some o' := by
  simp only [flags, List.mem_cons, List.not_mem_nil, or_false] at h
  rcases h with rfl | rfl | rfl | rfl | rfl | rfl | rfl <;> exact ⟨_, rfl⟩

theorem flagOpt_mem {c : Byte} {o o' : Opts} (h : flagOpt c o = some o') : c ∈ flags := by
  unfold flagOpt at h
  repeat' split at h
  all_goals first
    | (simp at h; done)
    | (subst_vars; decide)

theorem argOpt_some (E : Env) {c : Byte} (h : c ∈ withArg) : ∃ f, argOpt E c = some f := by
  simp only [withArg, List.mem_cons, List.not_mem_nil, or_false] at h
  rcases h with rfl | rfl | rfl | rfl | rfl | rfl | rfl | rfl | rfl | rfl | rfl | rfl | rfl | rfl <;> exact ⟨_, rfl⟩

theorem argOpt_none (E : Env) {c : Byte} (h : c ∉ withArg) : argOpt E c = none := by
  simp only [withArg, List.mem_cons, List.not_mem_nil, or_false, not_or] at h
  simp [argOpt, h]

theorem argOpt_mem {E : Env} {c : Byte} {f} (h : argOpt E c = some f) : c ∈ withArg := by
  refine Classical.byContradiction fun hc => ?_
  rw [argOpt_none E hc] at h
  cases h

theorem disjoint : ∀ c ∈ withArg, c ∉ flags := by decide

theorem flagOpt_none {c : Byte} (o : Opts) (h : c ∉ flags) : flagOpt c o = none := by
  cases e : flagOpt c o with
  | none => rfl
  | some _ => exact absurd (flagOpt_mem e) h

/-- Running a word is folding its options. -/
theorem cluster_word {E : Env} {w : Bytes} {args : List Bytes} {opts : List Opt} {args' : List Bytes}
    (h : Word w args opts args') (o : Opts) : cluster E w args o = match fold E o opts with
    | .ok o => .ok (o, args')
    | .exit s => .exit s
    | .ub => .ub := by
  induction h generalizing o with
  | done => rfl
  | flag hc _ ih =>
    obtain ⟨o', e⟩ := flagOpt_some o hc
    rw [cluster, e]
    simp only [fold, step, e, ih]
  | attached hc hw =>
    obtain ⟨f, e⟩ := argOpt_some E hc
    rw [cluster, flagOpt_none o (disjoint _ hc), e]
    simp only [hw, ne_eq, not_false_eq_true, if_true, fold, step, e]
    rename_i c w args
    cases f w o <;> rfl
  | separate hc =>
    obtain ⟨f, e⟩ := argOpt_some E hc
    rw [cluster, flagOpt_none o (disjoint _ hc), e]
    simp only [ne_eq, not_true_eq_false, if_false, fold, step, e]
    rename_i v _
    cases f v o <;> rfl

/-- A word that the option loop gets through means something. -/
theorem word_of_cluster {E : Env} {w : Bytes} {args args' : List Bytes} {o o' : Opts}
    (h : cluster E w args o = .ok (o', args')) : ∃ opts, Word w args opts args' := by
  induction w generalizing o with
  | nil =>
    simp only [cluster, Res.ok.injEq, Prod.mk.injEq] at h
    rw [← h.2]; exact ⟨_, .done⟩
  | cons c w ih =>
    rw [cluster] at h
    split at h
    · rename_i e
      obtain ⟨opts, h⟩ := ih h
      exact ⟨_, .flag (flagOpt_mem e) h⟩
    · split at h
      · simp at h
      · rename_i f e
        split at h
        · cases hf : f w o <;> simp only [hf, bind, Res.bind, pure] at h <;> simp at h
          rw [← h.2]
          exact ⟨_, .attached (argOpt_mem e) ‹_›⟩
        · rename_i hw
          simp only [ne_eq, Classical.not_not] at hw
          subst hw
          split at h
          · rename_i v args1
            cases hf : f v o <;> simp only [hf, bind, Res.bind, pure] at h <;> simp at h
            rw [← h.2]
            exact ⟨_, .separate (argOpt_mem e)⟩
          · simp at h

/-- A word outside the grammar ends the process, unless one of its options does something worse first. -/
theorem cluster_bad {E : Env} {w : Bytes} {args : List Bytes} (h : ¬ ∃ opts args', Word w args opts args') (o : Opts)
    : cluster E w args o = .exit 100 := by
  induction w generalizing o with
  | nil => exact absurd ⟨_, _, .done⟩ h
  | cons c w ih =>
    rw [cluster]
    split
    · rename_i o1 e
      exact ih (fun ⟨opts, args', h1⟩ => h ⟨_, _, .flag (flagOpt_mem e) h1⟩) _
    · split
      · rfl
      · rename_i f e
        split
        · exact absurd ⟨_, _, .attached (argOpt_mem e) ‹_›⟩ h
        · rename_i hw
          simp only [ne_eq, Classical.not_not] at hw
          subst hw
          split
          · exact absurd ⟨_, _, .separate (argOpt_mem e)⟩ h
          · rfl

theorem options_cons (E : Env) (w : Bytes) (args : List Bytes) (o : Opts) (h1 : w ≠ []) (h2 : w ≠ b!"-") :
    options E ((c! '-' :: w) :: args) o = match cluster E w args o with
      | .ok (o, args) => options E args o
      | .exit s => .exit s
      | .ub => .ub := by
  rw [options]
  have e1 : ¬ ((c! '-' :: w).head? ≠ some (c! '-')) := by simp
  have e2 : (c! '-' :: w) ≠ b!"-" := by simpa using h1
  have e3 : (c! '-' :: w) ≠ b!"--" := by simpa using h2
  rw [if_neg e1, if_neg e2, if_neg e3]
  split <;> rename_i h <;> (change cluster E w args o = _ at h; rw [h])

/-- The option loop folds the options that the command line means. -/
theorem options_reads {E : Env} {args : List Bytes} {opts : List Opt} {prog : List Bytes} (h : Reads args opts prog) (o : Opts) :
    options E args o = match fold E o opts with
    | .ok o => .ok (o, prog)
    | .exit s => .exit s
    | .ub => .ub := by
  induction h generalizing o with
  | empty => simp [options, fold]
  | prog h => rw [options, if_pos h]; rfl
  | dash => simp [options, fold]
  | dashes => simp [options, fold]
  | word h1 h2 hw _ ih =>
    rw [options_cons E _ _ _ h1 h2, cluster_word hw, fold_append]
    rename_i opts1 _ _ _ _
    cases fold E o opts1 <;> simp [ih]

/-- The options of a word are known, and the arguments left are among those given. -/
theorem word_known {w : Bytes} {args : List Bytes} {opts : List Opt} {args' : List Bytes} (h : Word w args opts args')
    (hw : NoNul w) (ha : ∀ a ∈ args, NoNul a) :
    (∀ x ∈ opts, Known x) ∧ (∀ a ∈ args', NoNul a) ∧ args'.length ≤ args.length := by
  induction h with
  | done => exact ⟨by simp, ha, Nat.le_refl _⟩
  | flag hc _ ih =>
    obtain ⟨h1, h2⟩ := ih (fun b hb => hw b (by simp [hb])) ha
    refine ⟨fun x hx => ?_, h2⟩
    rcases List.mem_cons.mp hx with rfl | hx
    · exact hc
    · exact h1 x hx
  | attached hc _ =>
    refine ⟨fun x hx => ?_, ha, Nat.le_refl _⟩
    rw [List.mem_singleton] at hx; subst hx
    exact ⟨hc, fun b hb => hw b (by simp [hb])⟩
  | separate hc =>
    refine ⟨fun x hx => ?_, fun a h => ha a (by simp [h]), by simp⟩
    rw [List.mem_singleton] at hx; subst hx
    exact ⟨hc, ha _ (by simp)⟩

theorem reads_known {args : List Bytes} {opts : List Opt} {prog : List Bytes} (h : Reads args opts prog)
    (ha : ∀ a ∈ args, NoNul a) : ∀ x ∈ opts, Known x := by
  induction h with
  | empty => simp
  | prog _ => simp
  | dash => simp
  | dashes => simp
  | word _ _ hw _ ih =>
    obtain ⟨h1, h2, -⟩ := word_known hw (fun b hb => ha _ List.mem_cons_self b (List.mem_cons_of_mem _ hb)) (fun a h => ha a (by simp [h]))
    intro x hx
    rcases List.mem_append.mp hx with hx | hx
    · exact h1 x hx
    · exact ih h2 x hx

/-- A command line that means nothing is refused. -/
theorem options_bad {E : Env} (hub : ∀ o opts, (∀ x ∈ opts, Known x) → fold E o opts ≠ .ub ∧ ∀ s, fold E o opts = .exit s → s = 100)
    (n : Nat) {args : List Bytes} (hn : args.length ≤ n) (h : ¬ ∃ opts prog, Reads args opts prog)
    (hk : ∀ a ∈ args, NoNul a) (o : Opts) : options E args o = .exit 100 := by
  induction n generalizing args o with
  | zero =>
    cases args with
    | nil => exact absurd ⟨_, _, .empty⟩ h
    | cons => simp at hn
  | succ n ih =>
    cases args with
    | nil => exact absurd ⟨_, _, .empty⟩ h
    | cons a args =>
      by_cases h1 : a.head? = some (c! '-')
      · obtain ⟨w, rfl⟩ : ∃ w, a = c! '-' :: w := by
          cases a with
          | nil => simp at h1
          | cons b w => simp at h1; exact ⟨w, by rw [h1]⟩
        by_cases h2 : w = []
        · subst h2; exact absurd ⟨_, _, .dash⟩ h
        · by_cases h3 : w = b!"-"
          · subst h3; exact absurd ⟨_, _, .dashes⟩ h
          · rw [options_cons E w args o h2 h3]
            by_cases h4 : ∃ opts args', Word w args opts args'
            · obtain ⟨opts, args', h4⟩ := h4
              obtain ⟨g1, g2, g3⟩ := word_known h4 (fun b hb => hk _ List.mem_cons_self b (List.mem_cons_of_mem _ hb)) (fun a h => hk a (by simp [h]))
              rw [cluster_word h4]
              obtain ⟨u1, u2⟩ := hub o opts g1
              cases e : fold E o opts with
              | ok o1 =>
                exact ih (by simp at hn; omega) (fun ⟨opts', prog, h5⟩ => h ⟨_, _, .word h2 h3 h4 h5⟩) g2 o1
              | exit s => simp [u2 s e]
              | ub => exact absurd e u1
            · rw [cluster_bad h4]
      · exact absurd ⟨_, _, .prog h1⟩ h

end Conf
