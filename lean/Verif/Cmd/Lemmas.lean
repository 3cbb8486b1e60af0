import Verif.Cmd.Model
import Verif.Conf.Props
/-
The option loop folds the options that the command line means.
-/
namespace Cmd
open Conf (Res)
open Conf.Spec (Opt values last switch Limit)
open Spec

variable {σ : Type}

/-- One option applied to the settings. -/
def step (L : Letters σ) (o : σ) : Opt → Res σ
  | .flag c => match L.flag c o with
    | some o => .ok o
    | none => .exit 100
  | .arg c v => match L.arg c with
    | some f => f v o
    | none => .exit 100

def fold (L : Letters σ) (o : σ) : List Opt → Res σ
  | [] => .ok o
  | x :: l => match step L o x with
    | .ok o => fold L o l
    | .exit s => .exit s
    | .ub => .ub

theorem fold_append (L : Letters σ) (o : σ) (l m : List Opt) : fold L o (l ++ m) = match fold L o l with
    | .ok o => fold L o m
    | .exit s => .exit s
    | .ub => .ub := by
  induction l generalizing o with
  | nil => rfl
  | cons x l ih =>
    simp only [List.cons_append, fold]
    cases step L o x <;> simp [ih]

/-- The letters of a program are `F` and `A`. -/
structure Has (L : Letters σ) (F A : Bytes) : Prop where
  flag : ∀ c o, (L.flag c o).isSome = decide (c ∈ F)
  arg : ∀ c, (L.arg c).isSome = decide (c ∈ A)
  disjoint : ∀ c ∈ A, c ∉ F

variable {L : Letters σ} {F A : Bytes}

theorem Has.flag_some (H : Has L F A) {c : Byte} (o : σ) (h : c ∈ F) : ∃ o', L.flag c o = some o' :=
  Option.isSome_iff_exists.mp (by simp [H.flag, h])

theorem Has.flag_none (H : Has L F A) {c : Byte} (o : σ) (h : c ∉ F) : L.flag c o = none := by
  have := H.flag c o
  cases e : L.flag c o <;> simp_all

theorem Has.flag_mem (H : Has L F A) {c : Byte} {o o' : σ} (h : L.flag c o = some o') : c ∈ F := by
  have := H.flag c o
  simpa [h] using this

theorem Has.arg_some (H : Has L F A) {c : Byte} (h : c ∈ A) : ∃ f, L.arg c = some f :=
  Option.isSome_iff_exists.mp (by simp [H.arg, h])

theorem Has.arg_mem (H : Has L F A) {c : Byte} {f} (h : L.arg c = some f) : c ∈ A := by
  have := H.arg c
  simpa [h] using this

theorem cluster_word (H : Has L F A) {w : Bytes} {args : List Bytes} {opts : List Opt} {args' : List Bytes}
    (h : Word F A w args opts args') (o : σ) : cluster L w args o = match fold L o opts with
    | .ok o => .ok (o, args')
    | .exit s => .exit s
    | .ub => .ub := by
  induction h generalizing o with
  | done => rfl
  | flag hc _ ih =>
    obtain ⟨o', e⟩ := H.flag_some o hc
    rw [cluster, e]
    simp only [fold, step, e, ih]
  | attached hc hw =>
    obtain ⟨f, e⟩ := H.arg_some hc
    rw [cluster, H.flag_none o (H.disjoint _ hc), e]
    simp only [hw, ne_eq, not_false_eq_true, if_true, fold, step, e]
    rename_i c w args
    cases f w o <;> rfl
  | separate hc =>
    obtain ⟨f, e⟩ := H.arg_some hc
    rw [cluster, H.flag_none o (H.disjoint _ hc), e]
    simp only [ne_eq, not_true_eq_false, if_false, fold, step, e]
    rename_i v _
    cases f v o <;> rfl

theorem cluster_bad (H : Has L F A) {w : Bytes} {args : List Bytes} (h : ¬ ∃ opts args', Word F A w args opts args') (o : σ) :
    cluster L w args o = .exit 100 := by
  induction w generalizing o with
  | nil => exact absurd ⟨_, _, .done⟩ h
  | cons c w ih =>
    rw [cluster]
    split
    · rename_i o1 e
      exact ih (fun ⟨opts, args', h1⟩ => h ⟨_, _, .flag (H.flag_mem e) h1⟩) _
    · split
      · rfl
      · rename_i f e
        split
        · exact absurd ⟨_, _, .attached (H.arg_mem e) ‹_›⟩ h
        · rename_i hw
          simp only [ne_eq, Classical.not_not] at hw
          subst hw
          split
          · exact absurd ⟨_, _, .separate (H.arg_mem e)⟩ h
          · rfl

theorem options_cons (L : Letters σ) (w : Bytes) (args : List Bytes) (o : σ) (h1 : w ≠ []) (h2 : w ≠ b!"-") :
    options L ((c! '-' :: w) :: args) o = match cluster L w args o with
      | .ok (o, args) => options L args o
      | .exit s => .exit s
      | .ub => .ub := by
  rw [options]
  have e1 : ¬ ((c! '-' :: w).head? ≠ some (c! '-')) := by simp
  have e2 : (c! '-' :: w) ≠ b!"-" := by simpa using h1
  have e3 : (c! '-' :: w) ≠ b!"--" := by simpa using h2
  rw [if_neg e1, if_neg e2, if_neg e3]
  split <;> rename_i h <;> (change cluster L w args o = _ at h; rw [h])

theorem options_reads (H : Has L F A) {args : List Bytes} {opts : List Opt} {rest : List Bytes}
    (h : Reads F A args opts rest) (o : σ) :
    options L args o = match fold L o opts with
    | .ok o => .ok (o, rest)
    | .exit s => .exit s
    | .ub => .ub := by
  induction h generalizing o with
  | empty => simp [options, fold]
  | rest h => rw [options, if_pos h]; rfl
  | dash => simp [options, fold]
  | dashes => simp [options, fold]
  | word h1 h2 hw _ ih =>
    rw [options_cons L _ _ _ h1 h2, cluster_word H hw, fold_append]
    rename_i opts1 _ _ _ _
    cases fold L o opts1 <;> simp [ih]

/-- The option is a known one and its argument a C string. -/
def Known (F A : Bytes) : Opt → Prop
  | .flag c => c ∈ F
  | .arg c v => c ∈ A ∧ NoNul v

theorem word_known {w : Bytes} {args : List Bytes} {opts : List Opt} {args' : List Bytes} (h : Word F A w args opts args')
    (hw : NoNul w) (ha : ∀ a ∈ args, NoNul a) :
    (∀ x ∈ opts, Known F A x) ∧ (∀ a ∈ args', NoNul a) ∧ args'.length ≤ args.length := by
  induction h with
  | done => exact ⟨by simp, ha, Nat.le_refl _⟩
  | flag hc _ ih =>
    obtain ⟨h1, h2⟩ := ih (fun b hb => hw b (by simp [hb])) ha
    refine ⟨fun x hx => ?_, h2⟩
    rcases List.mem_cons.mp hx with rfl | hx
    · exact hc
    · exact h1 x hx
  | attached hc _ =>
    refine ⟨fun x hx => ?_, ha, Nat.le_refl _⟩
    rw [List.mem_singleton] at hx; subst hx
    exact ⟨hc, fun b hb => hw b (by simp [hb])⟩
  | separate hc =>
    refine ⟨fun x hx => ?_, fun a h => ha a (by simp [h]), by simp⟩
    rw [List.mem_singleton] at hx; subst hx
    exact ⟨hc, ha _ (by simp)⟩

theorem reads_known {args : List Bytes} {opts : List Opt} {rest : List Bytes} (h : Reads F A args opts rest)
    (ha : ∀ a ∈ args, NoNul a) : (∀ x ∈ opts, Known F A x) ∧ ∀ a ∈ rest, NoNul a := by
  induction h with
  | empty => simp
  | rest _ => exact ⟨by simp, ha⟩
  | dash => exact ⟨by simp, fun a h => ha a (by simp [h])⟩
  | dashes => exact ⟨by simp, fun a h => ha a (by simp [h])⟩
  | word _ _ hw _ ih =>
    obtain ⟨h1, h2, -⟩ := word_known hw (fun b hb => ha _ List.mem_cons_self b (List.mem_cons_of_mem _ hb)) (fun a h => ha a (by simp [h]))
    refine ⟨fun x hx => ?_, (ih h2).2⟩
    rcases List.mem_append.mp hx with hx | hx
    · exact h1 x hx
    · exact (ih h2).1 x hx

/-- What the steps of a program do: `conf` says what the settings are after a list of options, `Ok` which
options are acceptable; the others end the process with 100. -/
structure Means (L : Letters σ) (F A : Bytes) (conf : List Opt → σ) (Ok : Opt → Prop) : Prop where
  ok : ∀ l x, Known F A x → Ok x → step L (conf l) x = .ok (conf (l ++ [x]))
  bad : ∀ o x, Known F A x → ¬ Ok x → step L o x = .exit 100

theorem fold_means {conf : List Opt → σ} {Ok : Opt → Prop} (M : Means L F A conf Ok) (opts : List Opt)
    (hk : ∀ x ∈ opts, Known F A x) (l : List Opt) :
    ((∀ x ∈ opts, Ok x) → fold L (conf l) opts = .ok (conf (l ++ opts))) ∧
    ((¬ ∀ x ∈ opts, Ok x) → fold L (conf l) opts = .exit 100) := by
  induction opts generalizing l with
  | nil => exact ⟨fun _ => by simp [fold], fun h => absurd (by simp) h⟩
  | cons x opts ih =>
    have hx := hk x (by simp)
    have ih := ih (fun y hy => hk y (by simp [hy])) (l ++ [x])
    constructor
    · intro h
      rw [fold, M.ok l x hx (h x (by simp))]
      simp only [List.append_assoc, List.singleton_append] at ih
      exact ih.1 (fun y hy => h y (by simp [hy]))
    · intro h
      rw [fold]
      by_cases hok : Ok x
      · rw [M.ok l x hx hok]
        exact ih.2 (fun g => h (fun y hy => (List.mem_cons.mp hy).elim (fun e => e ▸ hok) (g y)))
      · rw [M.bad _ x hx hok]

/-- The whole option loop: what is left of the command line, or exit code 100. -/
theorem options_means (H : Has L F A) {conf : List Opt → σ} {Ok : Opt → Prop} (M : Means L F A conf Ok)
    (args : List Bytes) (ha : ∀ a ∈ args, NoNul a) :
    (∀ opts rest, Reads F A args opts rest → (∀ x ∈ opts, Ok x) → options L args (conf []) = .ok (conf opts, rest)) ∧
    ((¬ ∃ opts rest, Reads F A args opts rest ∧ ∀ x ∈ opts, Ok x) → options L args (conf []) = .exit 100) := by
  constructor
  · intro opts rest h hok
    rw [options_reads H h, (fold_means M opts (reads_known h ha).1 []).1 hok]
    rfl
  · suffices G : ∀ n (args : List Bytes), args.length ≤ n → (∀ a ∈ args, NoNul a) → ∀ l,
        (¬ ∃ opts rest, Reads F A args opts rest ∧ ∀ x ∈ opts, Ok x) → options L args (conf l) = .exit 100 from
      fun h => G _ args (Nat.le_refl _) ha [] h
    intro n
    induction n with
    | zero =>
      intro args hn _ l h
      cases args with
      | nil => exact absurd ⟨_, _, .empty, by simp⟩ h
      | cons => simp at hn
    | succ n ih =>
      intro args hn ha l h
      cases args with
      | nil => exact absurd ⟨_, _, .empty, by simp⟩ h
      | cons a args =>
        by_cases h1 : a.head? = some (c! '-')
        · obtain ⟨w, rfl⟩ : ∃ w, a = c! '-' :: w := by
            cases a with
            | nil => simp at h1
            | cons b w => simp at h1; exact ⟨w, by rw [h1]⟩
          by_cases h2 : w = []
          · subst h2; exact absurd ⟨_, _, .dash, by simp⟩ h
          · by_cases h3 : w = b!"-"
            · subst h3; exact absurd ⟨_, _, .dashes, by simp⟩ h
            · rw [options_cons L w args _ h2 h3]
              by_cases h4 : ∃ opts args', Word F A w args opts args'
              · obtain ⟨opts, args', h4⟩ := h4
                obtain ⟨g1, g2, g3⟩ := word_known h4 (fun b hb => ha _ List.mem_cons_self b (List.mem_cons_of_mem _ hb)) (fun a h => ha a (by simp [h]))
                rw [cluster_word H h4]
                by_cases hok : ∀ x ∈ opts, Ok x
                · rw [(fold_means M opts g1 l).1 hok]
                  refine ih args' (by simp at hn; omega) g2 _ (fun ⟨opts', rest, h5, h6⟩ => h ⟨_, _, .word h2 h3 h4 h5, ?_⟩)
                  intro x hx
                  rcases List.mem_append.mp hx with hx | hx
                  · exact hok x hx
                  · exact h6 x hx
                · rw [(fold_means M opts g1 l).2 hok]
              · rw [cluster_bad H h4]
        · exact absurd ⟨_, _, .rest h1, by simp⟩ h

end Cmd
