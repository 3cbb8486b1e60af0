import Verif.Conf.Props
import Verif.Cmd.Props
/-
C111: how the options are written and in which order does not matter, apart from options about the same thing.
-/
namespace Cmd
open Conf.Spec (Opt values last switch certs verbosity)

/-- What an option is about: verbosity ('q', 'Q', 'v'), the preference in choosing a suite ('s', 'S'), delayed
encryption ('n', 'N'), the fate of mail without greylist server ('c', 'C' without argument), the certificates ('d', 'f');
every other option is about a thing of its own. -/
def topic : Opt → Bool × Byte
  | .flag c =>
    (false, if c = c! 'q' ∨ c = c! 'Q' then c! 'v' else if c = c! 'S' then c! 's' else if c = c! 'N' then c! 'n'
      else if c = c! 'C' then c! 'c' else c)
  | .arg c _ => (true, if c = c! 'f' then c! 'd' else c)

/-- The two lists say the same about each thing, in the same order. -/
def Same (l m : List Opt) : Prop := ∀ t, l.filter (fun x => topic x = t) = m.filter (fun x => topic x = t)

/-- Neighbours that are about different things may be exchanged. -/
theorem same_swap (l m : List Opt) (x y : Opt) (h : topic x ≠ topic y) : Same (l ++ x :: y :: m) (l ++ y :: x :: m) := by
  intro t
  simp only [List.filter_append, List.filter_cons]
  by_cases hx : topic x = t
  · have hy : topic y ≠ t := fun hy => h (hx.trans hy.symm)
    simp [hx, hy]
  · by_cases hy : topic y = t <;> simp [hx, hy]

theorem Same.trans {l m k : List Opt} (h : Same l m) (g : Same m k) : Same l k := fun t => (h t).trans (g t)

theorem Same.mem {l m : List Opt} (h : Same l m) (x : Opt) : x ∈ l ↔ x ∈ m := by
  have hf (k : List Opt) : x ∈ k ↔ x ∈ k.filter (fun y => topic y = topic x) := by simp [List.mem_filter]
  rw [hf l, hf m, h]

theorem Same.pick {l m : List Opt} (h : Same l m) {α} (f : Opt → Option α) (t : Bool × Byte) (hf : ∀ x, topic x ≠ t → f x = none) :
    l.filterMap f = m.filterMap f := by
  have e (k : List Opt) : k.filterMap f = (k.filter (fun x => topic x = t)).filterMap f := by
    rw [List.filterMap_filter]
    congr 1
    funext x
    by_cases hx : topic x = t
    · simp [hx]
    · simp [hx, hf x hx]
  rw [e l, e m, h t]

theorem Same.values {l m : List Opt} (h : Same l m) (c : Byte) : values c l = values c m := by
  refine h.pick _ (true, if c = c! 'f' then c! 'd' else c) ?_
  intro x hx
  cases x with
  | flag _ => rfl
  | arg d v =>
    by_cases hd : d = c
    · subst hd; exact absurd rfl hx
    · simp [hd]

theorem Same.last {l m : List Opt} (h : Same l m) (c : Byte) : last c l = last c m := by
  unfold Conf.Spec.last; rw [h.values]

theorem Same.certs {l m : List Opt} (h : Same l m) : certs l = certs m := by
  refine h.pick _ (true, c! 'd') ?_
  intro x hx
  cases x with
  | flag _ => rfl
  | arg d v =>
    by_cases hd : d = c! 'd'
    · subst hd; exact absurd (by simp [topic]) hx
    · by_cases hf : d = c! 'f'
      · subst hf; exact absurd (by simp [topic]) hx
      · simp [hd, hf]

theorem Same.switch {l m : List Opt} (h : Same l m) (y n : Byte) (d : Bool) (he : topic (.flag y) = topic (.flag n)) :
    switch y n d l = switch y n d m := by
  have e (k : List Opt) : k.filter (fun o => o = .flag y ∨ o = .flag n) =
      (k.filter (fun x => topic x = topic (.flag y))).filter (fun o => o = .flag y ∨ o = .flag n) := by
    rw [List.filter_filter]
    congr 1
    funext x
    by_cases hy : x = .flag y
    · simp [hy]
    · by_cases hn : x = .flag n
      · simp [hn, he]
      · simp [hy, hn]
  unfold Conf.Spec.switch
  rw [e l, e m, h]

theorem Same.verbosity {l m : List Opt} (h : Same l m) : verbosity l = verbosity m := by
  have e (k : List Opt) (a : Nat) : k.foldl (fun n o => if o = .flag (c! 'q') then 0 else if o = .flag (c! 'Q') then 1
      else if o = .flag (c! 'v') then n + 1 else n) a =
      (k.filter (fun x => topic x = (false, c! 'v'))).foldl (fun n o => if o = .flag (c! 'q') then 0 else if o = .flag (c! 'Q') then 1
      else if o = .flag (c! 'v') then n + 1 else n) a := by
    induction k generalizing a with
    | nil => rfl
    | cons x k ih =>
      by_cases hx : topic x = (false, c! 'v')
      · rw [List.filter_cons_of_pos (by simp [hx])]
        simp only [List.foldl_cons]
        exact ih _
      · rw [List.filter_cons_of_neg (by simp [hx])]
        simp only [List.foldl_cons]
        have h1 : x ≠ .flag (c! 'q') := fun e => hx (by rw [e]; decide)
        have h2 : x ≠ .flag (c! 'Q') := fun e => hx (by rw [e]; decide)
        have h3 : x ≠ .flag (c! 'v') := fun e => hx (by rw [e]; decide)
        rw [if_neg h1, if_neg h2, if_neg h3]
        exact ih _
  unfold Conf.Spec.verbosity
  rw [e l, e m, h]

/-- **C111 (tlswrapper).** Two command lines with the same command whose options say the same about each thing are the same to
the program, however the options are written and ordered: it starts in the same way or refuses in the same way. -/
theorem c111_tlswrapper (E : Conf.Env) (emptydir a b : Bytes) (args args' : List Bytes) (ha : ∀ x ∈ args, NoNul x) (ha' : ∀ x ∈ args', NoNul x)
    (opts opts' : List Opt) (prog : List Bytes) (h : Conf.Spec.Reads args opts prog) (h' : Conf.Spec.Reads args' opts' prog)
    (same : Same opts opts') : Conf.start E emptydir (a :: args) = Conf.start E emptydir (b :: args') := by
  have hc : Conf.conf E emptydir opts = Conf.conf E emptydir opts' := by
    simp only [Conf.conf, same.values, same.last, same.certs, same.verbosity, same.switch (c! 's') (c! 'S') _ (by decide),
      same.switch (c! 'n') (c! 'N') _ (by decide)]
  have hv : Conf.OkOpts E opts ↔ Conf.OkOpts E opts' := by
    constructor <;> intro ⟨h1, h2, h3, h4, h5, h6, h7, h8, h9, h10, h11⟩
    · simp only [same.values] at *
      exact ⟨h1, h2, h3, h4, h5, h6, h7, h8, h9, h10, h11⟩
    · simp only [← same.values] at *
      exact ⟨h1, h2, h3, h4, h5, h6, h7, h8, h9, h10, h11⟩
  have hf : Conf.options E args (Conf.conf E emptydir []) = Conf.options E args' (Conf.conf E emptydir []) := by
    rw [Conf.options_reads h, Conf.options_reads h']
    by_cases hok : Conf.OkOpts E opts
    · rw [(Conf.fold_conf E emptydir opts (Conf.reads_known h ha)).1 hok, (Conf.fold_conf E emptydir opts' (Conf.reads_known h' ha')).1 (hv.1 hok), hc]
    · rw [(Conf.fold_conf E emptydir opts (Conf.reads_known h ha)).2 hok,
        (Conf.fold_conf E emptydir opts' (Conf.reads_known h' ha')).2 (fun g => hok (hv.2 g))]
  rw [Conf.start_eq, Conf.start_eq, hf]

theorem options_same {σ} {L : Letters σ} {F A : Bytes} (H : Has L F A) {conf : List Opt → σ} {Ok : Opt → Prop} (M : Means L F A conf Ok)
    {args args' : List Bytes} (ha : ∀ x ∈ args, NoNul x) (ha' : ∀ x ∈ args', NoNul x)
    {opts opts' : List Opt} {rest : List Bytes} (h : Spec.Reads F A args opts rest) (h' : Spec.Reads F A args' opts' rest) (same : Same opts opts')
    (hc : conf opts = conf opts') : options L args (conf []) = options L args' (conf []) := by
  have hk := (reads_known h ha).1
  have hk' := (reads_known h' ha').1
  rw [options_reads H h, options_reads H h']
  by_cases hok : ∀ x ∈ opts, Ok x
  · rw [(fold_means M opts hk []).1 hok, (fold_means M opts' hk' []).1 (fun x hx => hok x ((same.mem x).2 hx))]
    simp [hc]
  · rw [(fold_means M opts hk []).2 hok, (fold_means M opts' hk' []).2 (fun g => hok (fun x hx => g x ((same.mem x).1 hx)))]

/-- **C111 (tlswrapper-tcp).** -/
theorem c111_tcp (emptydir a b : Bytes) (args args' : List Bytes) (ha : ∀ x ∈ args, NoNul x) (ha' : ∀ x ∈ args', NoNul x)
    (opts opts' : List Opt) (rest : List Bytes) (h : Spec.Reads Spec.tcpFlags Spec.tcpArgs args opts rest)
    (h' : Spec.Reads Spec.tcpFlags Spec.tcpArgs args' opts' rest) (same : Same opts opts') :
    tcpStart emptydir (a :: args) = tcpStart emptydir (b :: args') := by
  have hf : options tcpLetters args (tcpInitial emptydir) = options tcpLetters args' (tcpInitial emptydir) :=
    options_same tcp_has (tcp_means emptydir) ha ha' h h' same (by
      simp only [tcpConf, same.values, same.last, same.verbosity])
  unfold tcpStart
  simp only [hf]

/-- **C111 (tlswrapper-smtp).** -/
theorem c111_smtp (ip6 : Bytes → Bool) (emptydir buf a b : Bytes) (args args' : List Bytes) (ha : ∀ x ∈ args, NoNul x)
    (ha' : ∀ x ∈ args', NoNul x) (opts opts' : List Opt) (rest : List Bytes)
    (h : Spec.Reads Spec.smtpFlags Spec.smtpArgs args opts rest) (h' : Spec.Reads Spec.smtpFlags Spec.smtpArgs args' opts' rest)
    (same : Same opts opts') : smtpStart ip6 emptydir buf (a :: args) = smtpStart ip6 emptydir buf (b :: args') := by
  have hf : options smtpLetters args (smtpInitial emptydir) = options smtpLetters args' (smtpInitial emptydir) :=
    options_same smtp_has (smtp_means emptydir) ha ha' h h' same (by
      simp only [smtpConf, same.last, same.verbosity, same.switch (c! 'c') (c! 'C') _ (by decide)])
  unfold smtpStart
  simp only [hf]

/-- The same options in another order and another writing: "-v -f/c.pem -p 1 prog" and "-p1 -vf /c.pem prog". -/
example : ∃ st, Conf.start Conf.sampleEnv b!"/" [b!"w", b!"-v", b!"-f/c.pem", b!"-p", b!"1", b!"prog"] = .ok st ∧
    Conf.start Conf.sampleEnv b!"/" [b!"x", b!"-p1", b!"-vf", b!"/c.pem", b!"prog"] = .ok st := by
  obtain ⟨st, h, -⟩ := Conf.see_ok (f := fun _ => ()) (b := ())
    (r := Conf.start Conf.sampleEnv b!"/" [b!"w", b!"-v", b!"-f/c.pem", b!"-p", b!"1", b!"prog"]) (by decide +kernel)
  refine ⟨st, h, ?_⟩
  rw [← h]
  refine c111_tlswrapper _ _ _ _ _ _ (by decide) (by decide) [.arg (c! 'p') b!"1", .flag (c! 'v'), .arg (c! 'f') b!"/c.pem"]
    [.flag (c! 'v'), .arg (c! 'f') b!"/c.pem", .arg (c! 'p') b!"1"] [b!"prog"] ?_ ?_ ?_
  · exact .word (w := b!"p1") (opts := [_]) (by decide) (by decide) (.attached (by decide) (by decide))
      (.word (w := b!"vf") (opts := [_, _]) (opts' := []) (by decide) (by decide) (.flag (by decide) (.separate (by decide))) (.prog (by decide)))
  · exact .word (w := b!"v") (opts := [_]) (by decide) (by decide) (.flag (by decide) .done)
      (.word (w := b!"f/c.pem") (opts := [_]) (by decide) (by decide) (.attached (by decide) (by decide))
        (.word (w := b!"p") (opts := [_]) (opts' := []) (by decide) (by decide) (.separate (by decide)) (.prog (by decide))))
  · exact (same_swap [] [.arg (c! 'f') b!"/c.pem"] (.arg (c! 'p') b!"1") (.flag (c! 'v')) (by decide)).trans
      (same_swap [.flag (c! 'v')] [] (.arg (c! 'p') b!"1") (.arg (c! 'f') b!"/c.pem") (by decide))

/-- The order among options about the same thing matters: certificates are tried in the order given. -/
theorem c111_certs_ordered : ∃ st st', Conf.start Conf.sampleEnv b!"/" [b!"w", b!"-f/c.pem", b!"-d/certs", b!"prog"] = .ok st ∧
    Conf.start Conf.sampleEnv b!"/" [b!"w", b!"-d/certs", b!"-f/c.pem", b!"prog"] = .ok st' ∧
    st.opts.ctx.certfiles = [(b!"/c.pem", false), (b!"/certs", true)] ∧ st'.opts.ctx.certfiles = [(b!"/certs", true), (b!"/c.pem", false)] := by
  obtain ⟨st, h, g⟩ := Conf.see_ok (f := fun st : Conf.Started => st.opts.ctx.certfiles) (b := [(b!"/c.pem", false), (b!"/certs", true)])
    (r := Conf.start Conf.sampleEnv b!"/" [b!"w", b!"-f/c.pem", b!"-d/certs", b!"prog"]) (by decide +kernel)
  obtain ⟨st', h', g'⟩ := Conf.see_ok (f := fun st : Conf.Started => st.opts.ctx.certfiles) (b := [(b!"/certs", true), (b!"/c.pem", false)])
    (r := Conf.start Conf.sampleEnv b!"/" [b!"w", b!"-d/certs", b!"-f/c.pem", b!"prog"]) (by decide +kernel)
  exact ⟨st, st', h, h', g, g'⟩

end Cmd
