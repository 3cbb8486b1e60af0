import Verif.Conf.OptLemmas
/-
The state after folding a list of options, in terms of the specification.
-/
namespace Conf
open Spec

/-- The certificate user's field as an object identifier (X.520 commonName, PKCS #9 emailAddress), DER with length. -/
def oidOf (x : Bytes) : Option Bytes :=
  if x = b!"commonName" then some [3, 85, 4, 3]
  else if x = b!"emailAddress" then some [9, 42, 134, 72, 134, 247, 13, 1, 9, 1]
  else none

def curveMask (x448 : Bool) (l : List Bytes) : Nat := l.foldl (fun m v => m ||| (1 <<< (curve x448 v).getD 0)) 0

/-- The state after the options `l`. -/
def conf (E : Env) (emptydir : Bytes) (l : List Opt) : Opts where
  ctx :=
    { enforce_server_preferences := switch (c! 's') (c! 'S') true l
      no_renegotiation := true
      tolerate_no_client_auth := false
      version_min := ((last (c! 'm') l).bind version).getD 0x0303
      version_max := ((last (c! 'M') l).bind version).getD 0x0303
      ecdhe_enabled := if values (c! 'e') l = [] then (1 <<< 29) ||| (1 <<< 23) else curveMask E.x448 (values (c! 'e') l)
      ecdhe_default := decide (values (c! 'e') l = [])
      cipher_enabled := if values (c! 'c') l = [] then defaultSuites else suites (values (c! 'c') l)
      cipher_default := decide (values (c! 'c') l = [])
      certfiles := certs l
      anchorfn := (values (c! 'a') l).head?
      oid := (last (c! 'U') l).bind oidOf
      flagdelayedenc := switch (c! 'n') (c! 'N') false l
      jailaccount := last (c! 'j') l
      jaildir := (last (c! 'J') l).getD emptydir }
  hstimeoutstr := (last (c! 'T') l).getD b!"30"
  timeoutstr := (last (c! 't') l).getD b!"60"
  user := last (c! 'u') l
  userfromcert := last (c! 'U') l
  flagverbose := verbosity l
  log_level := min (verbosity l) 4
  ppin := decide (b!"1" ∈ values (c! 'p') l)

/-- The file system as the specification sees it. -/
def Env.isDir (E : Env) (x : Bytes) : Prop := E.stat x = some .dir
def Env.isReg (E : Env) (x : Bytes) : Prop := E.stat x = some .reg

abbrev OkOpts (E : Env) (l : List Opt) : Prop := Valid E.x448 E.isDir E.isReg l

/-! ### What one more option changes -/

theorem values_flag (d c : Byte) (l : List Opt) : values d (l ++ [.flag c]) = values d l := by
  simp [values, List.filterMap_append]

theorem values_arg (d c : Byte) (v : Bytes) (l : List Opt) :
    values d (l ++ [.arg c v]) = values d l ++ (if c = d then [v] else []) := by
  simp only [values, List.filterMap_append, List.filterMap_cons, List.filterMap_nil]
  split <;> simp_all

theorem last_flag (d c : Byte) (l : List Opt) : last d (l ++ [.flag c]) = last d l := by
  simp [last, values_flag]

theorem last_arg (d c : Byte) (v : Bytes) (l : List Opt) :
    last d (l ++ [.arg c v]) = if c = d then some v else last d l := by
  simp only [last, values_arg]
  split <;> simp

theorem switch_arg (y n : Byte) (d : Bool) (c : Byte) (v : Bytes) (l : List Opt) :
    switch y n d (l ++ [.arg c v]) = switch y n d l := by
  simp [switch, List.filter_append]

theorem switch_flag (y n : Byte) (d : Bool) (c : Byte) (l : List Opt) :
    switch y n d (l ++ [.flag c]) = if c = y then true else if c = n then false else switch y n d l := by
  simp only [switch, List.filter_append, List.filter_cons, List.filter_nil]
  by_cases h1 : c = y
  · simp [h1]
  · by_cases h2 : c = n
    · simp [h2]
    · simp [h1, h2]

theorem certs_flag (c : Byte) (l : List Opt) : certs (l ++ [.flag c]) = certs l := by
  simp [certs, List.filterMap_append]

theorem certs_arg (c : Byte) (v : Bytes) (l : List Opt) :
    certs (l ++ [.arg c v]) = certs l ++ (if c = c! 'd' then [(v, true)] else if c = c! 'f' then [(v, false)] else []) := by
  simp only [certs, List.filterMap_append, List.filterMap_cons, List.filterMap_nil]
  split
  · rename_i h; split at h
    · simp at h
    · split at h <;> simp_all
  · rename_i h; split at h
    · simp_all
    · split at h <;> simp_all

theorem certs_length (l : List Opt) : (certs l).length = (values (c! 'd') l).length + (values (c! 'f') l).length := by
  induction l with
  | nil => rfl
  | cons x l ih =>
    cases x with
    | flag c => simpa [certs, values] using ih
    | arg c v =>
      simp only [certs, values, List.filterMap_cons] at ih ⊢
      by_cases h1 : c = c! 'd'
      · subst h1; simp; omega
      · by_cases h2 : c = c! 'f'
        · subst h2; simp; omega
        · simp [h1, h2]; exact ih

theorem verbosity_arg (c : Byte) (v : Bytes) (l : List Opt) : verbosity (l ++ [.arg c v]) = verbosity l := by
  simp [verbosity, List.foldl_append]

theorem verbosity_flag (c : Byte) (l : List Opt) : verbosity (l ++ [.flag c]) =
    if c = c! 'q' then 0 else if c = c! 'Q' then 1 else if c = c! 'v' then verbosity l + 1 else verbosity l := by
  simp [verbosity, List.foldl_append]

theorem curveMask_snoc (x448 : Bool) (l : List Bytes) (v : Bytes) :
    curveMask x448 (l ++ [v]) = curveMask x448 l ||| (1 <<< (curve x448 v).getD 0) := by
  simp [curveMask, List.foldl_append]

/-- A flag never makes options invalid. -/
theorem valid_flag (E : Env) (c : Byte) (l : List Opt) : OkOpts E (l ++ [.flag c]) ↔ OkOpts E l := by
  constructor <;> intro h <;> refine ⟨?_, ?_, ?_, ?_, ?_, ?_, ?_, ?_, ?_, ?_, ?_⟩ <;>
    first
    | exact fun v hv => h.proxy v (by simpa [values_flag] using hv)
    | exact fun v hv => h.certuser v (by simpa [values_flag] using hv)
    | exact fun v hv => h.min v (by simpa [values_flag] using hv)
    | exact fun v hv => h.max v (by simpa [values_flag] using hv)
    | exact fun v hv => h.dir v (by simpa [values_flag] using hv)
    | exact fun v hv => h.file v (by simpa [values_flag] using hv)
    | exact fun v hv => h.anchor v (by simpa [values_flag] using hv)
    | exact fun v hv => h.curves v (by simpa [values_flag] using hv)
    | exact fun v hv => h.ciphers v (by simpa [values_flag] using hv)
    | simpa [values_flag] using h.atMost
    | simpa [values_flag] using h.oneAnchor

/-- What is asked of one more option. -/
def ArgOk (E : Env) (l : List Opt) (c : Byte) (v : Bytes) : Prop :=
  (c = c! 'p' → v = b!"0" ∨ v = b!"1") ∧
  (c = c! 'U' → v = b!"commonName" ∨ v = b!"emailAddress") ∧
  (c = c! 'm' → (version v).isSome) ∧
  (c = c! 'M' → (version v).isSome) ∧
  (c = c! 'd' → E.isDir v ∧ (certs l).length < 4) ∧
  (c = c! 'f' → E.isReg v ∧ (certs l).length < 4) ∧
  (c = c! 'a' → E.isReg v ∧ values (c! 'a') l = []) ∧
  (c = c! 'e' → (curve E.x448 v).isSome) ∧
  (c = c! 'c' → (cipher v).isSome)

theorem valid_arg (E : Env) (c : Byte) (v : Bytes) (l : List Opt) :
    OkOpts E (l ++ [.arg c v]) ↔ OkOpts E l ∧ ArgOk E l c v := by
  have split (d : Byte) (P : Bytes → Prop) : (∀ u ∈ values d (l ++ [.arg c v]), P u) ↔
      (∀ u ∈ values d l, P u) ∧ (c = d → P v) := by
    rw [values_arg]
    by_cases h : c = d
    · simp only [h, if_true, List.mem_append, List.mem_singleton, true_implies]
      exact ⟨fun g => ⟨fun u hu => g u (.inl hu), g v (.inr rfl)⟩, fun ⟨g1, g2⟩ u hu => hu.elim (g1 u) (fun e => e ▸ g2)⟩
    · simp [h]
  have hl : (values (c! 'd') (l ++ [.arg c v])).length + (values (c! 'f') (l ++ [.arg c v])).length =
      (certs l).length + (if c = c! 'd' ∨ c = c! 'f' then 1 else 0) := by
    rw [← certs_length, certs_arg]
    by_cases h1 : c = c! 'd'
    · simp [h1]
    · by_cases h2 : c = c! 'f' <;> simp [h1, h2]
  have ha : (values (c! 'a') (l ++ [.arg c v])).length = (values (c! 'a') l).length + (if c = c! 'a' then 1 else 0) := by
    rw [values_arg]; split <;> simp
  constructor
  · intro h
    have g4 := h.atMost; rw [hl] at g4
    have g5 := h.oneAnchor; rw [ha] at g5
    refine ⟨⟨((split _ _).mp h.proxy).1, ((split _ _).mp h.certuser).1, ((split _ _).mp h.min).1, ((split _ _).mp h.max).1,
      ((split _ _).mp h.dir).1, ((split _ _).mp h.file).1, ((split _ _).mp h.anchor).1, ((split _ _).mp h.curves).1,
      ((split _ _).mp h.ciphers).1, by rw [← certs_length]; omega, by omega⟩,
      ((split _ _).mp h.proxy).2, ((split _ _).mp h.certuser).2, ((split _ _).mp h.min).2, ((split _ _).mp h.max).2,
      fun e => ⟨((split _ _).mp h.dir).2 e, by simp [e] at g4; omega⟩,
      fun e => ⟨((split _ _).mp h.file).2 e, by simp [e] at g4; omega⟩,
      fun e => ⟨((split _ _).mp h.anchor).2 e, by simp [e] at g5; exact g5⟩,
      ((split _ _).mp h.curves).2, ((split _ _).mp h.ciphers).2⟩
  · rintro ⟨h, a1, a2, a3, a4, a5, a6, a7, a8, a9⟩
    have g4 := h.atMost; rw [← certs_length] at g4
    have g5 := h.oneAnchor
    refine ⟨(split _ _).mpr ⟨h.proxy, a1⟩, (split _ _).mpr ⟨h.certuser, a2⟩, (split _ _).mpr ⟨h.min, a3⟩,
      (split _ _).mpr ⟨h.max, a4⟩, (split _ _).mpr ⟨h.dir, fun e => (a5 e).1⟩, (split _ _).mpr ⟨h.file, fun e => (a6 e).1⟩,
      (split _ _).mpr ⟨h.anchor, fun e => (a7 e).1⟩, (split _ _).mpr ⟨h.curves, a8⟩, (split _ _).mpr ⟨h.ciphers, a9⟩, ?_, ?_⟩
    · rw [hl]
      split
      · rename_i e
        rcases e with e | e
        · have := (a5 e).2; omega
        · have := (a6 e).2; omega
      · omega
    · rw [ha]
      split
      · rename_i e; simp [(a7 e).2]
      · omega

/-! ### One step -/

theorem set_level_nat (n : Nat) : Log.set_level ((n : Int) + 1) = min ((n : Int) + 1) 4 := by
  unfold Log.set_level; simp only []; repeat' split
  all_goals omega

theorem step_flag (E : Env) (d : Bytes) (l : List Opt) (c : Byte) (h : c ∈ flags) :
    step E (conf E d l) (.flag c) = .ok (conf E d (l ++ [.flag c])) := by
  have hv := set_level_nat (verbosity l)
  simp only [flags, List.mem_cons, List.not_mem_nil, or_false] at h
  rcases h with rfl | rfl | rfl | rfl | rfl | rfl | rfl <;>
    simp [step, flagOpt, conf, values_flag, last_flag, switch_flag, certs_flag, verbosity_flag] <;>
    first | exact hv | rfl | trivial

/-- The result of one more option. -/
def Stepped (E : Env) (d : Bytes) (l : List Opt) (c : Byte) (v : Bytes) (r : Res Opts) : Prop :=
  (ArgOk E l c v → r = .ok (conf E d (l ++ [.arg c v]))) ∧ (¬ ArgOk E l c v → r = .exit 100)

theorem conf_ext (E : Env) (d : Bytes) (l : List Opt) (c : Byte) (v : Bytes) :
    conf E d (l ++ [.arg c v]) =
    { conf E d l with
      ctx :=
      { (conf E d l).ctx with
        version_min := ((if c = c! 'm' then some v else last (c! 'm') l).bind version).getD 0x0303
        version_max := ((if c = c! 'M' then some v else last (c! 'M') l).bind version).getD 0x0303
        ecdhe_enabled := if values (c! 'e') l ++ (if c = c! 'e' then [v] else []) = [] then (1 <<< 29) ||| (1 <<< 23)
          else curveMask E.x448 (values (c! 'e') l ++ (if c = c! 'e' then [v] else []))
        ecdhe_default := decide (values (c! 'e') l ++ (if c = c! 'e' then [v] else []) = [])
        cipher_enabled := if values (c! 'c') l ++ (if c = c! 'c' then [v] else []) = [] then defaultSuites
          else suites (values (c! 'c') l ++ (if c = c! 'c' then [v] else []))
        cipher_default := decide (values (c! 'c') l ++ (if c = c! 'c' then [v] else []) = [])
        certfiles := certs l ++ (if c = c! 'd' then [(v, true)] else if c = c! 'f' then [(v, false)] else [])
        anchorfn := (values (c! 'a') l ++ (if c = c! 'a' then [v] else [])).head?
        oid := (if c = c! 'U' then some v else last (c! 'U') l).bind oidOf
        jailaccount := if c = c! 'j' then some v else last (c! 'j') l
        jaildir := (if c = c! 'J' then some v else last (c! 'J') l).getD d }
      hstimeoutstr := (if c = c! 'T' then some v else last (c! 'T') l).getD b!"30"
      timeoutstr := (if c = c! 't' then some v else last (c! 't') l).getD b!"60"
      user := if c = c! 'u' then some v else last (c! 'u') l
      userfromcert := if c = c! 'U' then some v else last (c! 'U') l
      ppin := decide (b!"1" ∈ values (c! 'p') l ++ (if c = c! 'p' then [v] else [])) } := by
  simp only [conf, values_arg, last_arg, switch_arg, certs_arg, verbosity_arg]

theorem equal0 (n : Bytes) (h : NoNul n) (x : Bytes) (hx : NoNul x) : str_equal (n ++ [0]) x = .ok (decide (n = x)) :=
  str_equal_ok n x h hx

theorem step_p (E : Env) (d : Bytes) (l : List Opt) (v : Bytes) (hn : NoNul v) :
    Stepped E d l (c! 'p') v (pp_incoming v (conf E d l)) := by
  have ha : ArgOk E l (c! 'p') v ↔ v = b!"0" ∨ v = b!"1" := by simp [ArgOk]
  unfold Stepped
  rw [ha, conf_ext]
  unfold pp_incoming
  rw [str_equal_ok _ v (by decide) hn, str_equal_ok _ v (by decide) hn]
  by_cases h0 : v = b!"0"
  · subst h0; simp [Res.lift, bind, Res.bind, pure, conf]
  · by_cases h1 : v = b!"1"
    · subst h1; simp [Res.lift, bind, Res.bind, pure, conf]
    · simp [Res.lift, bind, Res.bind, pure, h0, h1, Ne.symm h0, Ne.symm h1]

theorem step_U (E : Env) (d : Bytes) (l : List Opt) (v : Bytes) (hn : NoNul v) :
    Stepped E d l (c! 'U') v (certuser_add v (conf E d l)) := by
  have ha : ArgOk E l (c! 'U') v ↔ v = b!"commonName" ∨ v = b!"emailAddress" := by simp [ArgOk]
  unfold Stepped
  rw [ha, conf_ext]
  unfold certuser_add
  rw [str_equal_ok _ v (by decide) hn, str_equal_ok _ v (by decide) hn]
  by_cases h0 : v = b!"commonName"
  · subst h0; simp [Res.lift, bind, Res.bind, pure, conf, oidOf]
  · by_cases h1 : v = b!"emailAddress"
    · subst h1; simp [Res.lift, bind, Res.bind, pure, conf, oidOf]
    · simp [Res.lift, bind, Res.bind, pure, h0, h1, Ne.symm h0, Ne.symm h1]

theorem step_m (E : Env) (d : Bytes) (l : List Opt) (v : Bytes) (hn : NoNul v) :
    Stepped E d l (c! 'm') v (version_setmin v (conf E d l)) := by
  have ha : ArgOk E l (c! 'm') v ↔ (version v).isSome := by simp [ArgOk]
  unfold Stepped
  rw [ha, conf_ext]
  unfold version_setmin orDie
  rw [setmin_ok _ v hn]
  cases h : version v <;> simp [Res.lift, bind, Res.bind, pure, conf, h]

theorem step_M (E : Env) (d : Bytes) (l : List Opt) (v : Bytes) (hn : NoNul v) :
    Stepped E d l (c! 'M') v (version_setmax v (conf E d l)) := by
  have ha : ArgOk E l (c! 'M') v ↔ (version v).isSome := by simp [ArgOk]
  unfold Stepped
  rw [ha, conf_ext]
  unfold version_setmax orDie
  rw [setmax_ok _ v hn]
  cases h : version v <;> simp [Res.lift, bind, Res.bind, pure, conf, h]

theorem step_d (E : Env) (d : Bytes) (l : List Opt) (v : Bytes) (hl : OkOpts E l) :
    Stepped E d l (c! 'd') v (certfile_add_dir E v (conf E d l)) := by
  have ha : ArgOk E l (c! 'd') v ↔ E.isDir v ∧ (certs l).length < 4 := by simp [ArgOk]
  unfold Stepped
  rw [ha, conf_ext]
  have hc : (conf E d l).ctx.certfiles = certs l := rfl
  unfold certfile_add_dir orDie tls_certfile_add
  rw [hc]
  cases h : E.stat v with
  | none => simp [Env.isDir, h]
  | some k =>
    by_cases hk : k = .dir
    · by_cases hlen : (certs l).length < 4
      · have : ¬ 4 ≤ (certs l).length := by omega
        simp [Env.isDir, h, hk, hlen, this, tls_CERTFILES, Res.lift, bind, Res.bind, pure, conf]
      · have : 4 ≤ (certs l).length := by omega
        simp [Env.isDir, h, hk, hlen, this, tls_CERTFILES, Res.lift, bind, Res.bind]
    · simp [Env.isDir, h, hk]

theorem step_f (E : Env) (d : Bytes) (l : List Opt) (v : Bytes) (hl : OkOpts E l) :
    Stepped E d l (c! 'f') v (certfile_add_file E v (conf E d l)) := by
  have ha : ArgOk E l (c! 'f') v ↔ E.isReg v ∧ (certs l).length < 4 := by simp [ArgOk]
  unfold Stepped
  rw [ha, conf_ext]
  have hc : (conf E d l).ctx.certfiles = certs l := rfl
  unfold certfile_add_file orDie tls_certfile_add
  rw [hc]
  cases h : E.stat v with
  | none => simp [Env.isReg, h]
  | some k =>
    by_cases hk : k = .reg
    · by_cases hlen : (certs l).length < 4
      · have : ¬ 4 ≤ (certs l).length := by omega
        simp [Env.isReg, h, hk, hlen, this, tls_CERTFILES, Res.lift, bind, Res.bind, pure, conf]
      · have : 4 ≤ (certs l).length := by omega
        simp [Env.isReg, h, hk, hlen, this, tls_CERTFILES, Res.lift, bind, Res.bind]
    · simp [Env.isReg, h, hk]

theorem step_a (E : Env) (d : Bytes) (l : List Opt) (v : Bytes) :
    Stepped E d l (c! 'a') v (anchor_add E v { conf E d l with ctx := { (conf E d l).ctx with tolerate_no_client_auth := false } }) := by
  have ha : ArgOk E l (c! 'a') v ↔ E.isReg v ∧ values (c! 'a') l = [] := by simp [ArgOk]
  unfold Stepped
  rw [ha, conf_ext]
  have hc : (conf E d l).ctx.anchorfn = (values (c! 'a') l).head? := rfl
  unfold anchor_add orDie tls_anchor_add
  simp only [hc]
  cases h : E.stat v with
  | none => simp [Env.isReg, h]
  | some k =>
    by_cases hk : k = .reg
    · cases hv : values (c! 'a') l with
      | nil => simp [Env.isReg, h, hk, hv, Res.lift, bind, Res.bind, pure, conf]
      | cons a t => simp [Env.isReg, h, hk, hv, Res.lift, bind, Res.bind, pure, conf]
    · simp [Env.isReg, h, hk]

theorem step_e (E : Env) (d : Bytes) (l : List Opt) (v : Bytes) (hn : NoNul v) :
    Stepped E d l (c! 'e') v (ecdhe_add E v (conf E d l)) := by
  have ha : ArgOk E l (c! 'e') v ↔ (curve E.x448 v).isSome := by simp [ArgOk]
  unfold Stepped
  rw [ha, conf_ext]
  unfold ecdhe_add orDie
  rw [ecdhe_add_ok _ _ v hn]
  cases h : curve E.x448 v with
  | none => simp [Res.lift, bind, Res.bind]
  | some k =>
    by_cases hv : values (c! 'e') l = []
    · simp [Res.lift, bind, Res.bind, pure, conf, hv, curveMask, h]
    · simp [Res.lift, bind, Res.bind, pure, conf, hv, curveMask, h]

theorem step_c (E : Env) (d : Bytes) (l : List Opt) (v : Bytes) (hn : NoNul v) (hl : OkOpts E l) :
    Stepped E d l (c! 'c') v (cipher_add v (conf E d l)) := by
  have ha : ArgOk E l (c! 'c') v ↔ (cipher v).isSome := by simp [ArgOk]
  unfold Stepped
  rw [ha, conf_ext]
  unfold cipher_add orDie
  rw [cipher_add_eq _ v hn]
  cases h : cipher v with
  | none => simp [Res.lift, bind, Res.bind]
  | some p =>
    obtain ⟨e, r⟩ := p
    have hpair : pair v = [e, r] := by simp [pair, h]
    have hlist : (if (conf E d l).ctx.cipher_default = true then { (conf E d l).ctx with cipher_enabled := [], cipher_default := false }
        else (conf E d l).ctx) = { (conf E d l).ctx with cipher_enabled := suites (values (c! 'c') l), cipher_default := false } := by
      by_cases hv : values (c! 'c') l = []
      · simp [conf, hv, suites, firsts]
      · simp [conf, hv]
    simp only [hlist, suites_any _ v e r h]
    by_cases hm : v ∈ values (c! 'c') l
    · simp [Res.lift, bind, Res.bind, pure, conf, hm, suites_snoc]
    · have hlen : (suites (values (c! 'c') l)).length + 2 ≤ 16 := by
        have h1 := flatMap_length_le (firsts (values (c! 'c') l))
        have h2 := suites_length _ hl.ciphers
        rw [suites_eq]; omega
      simp [Res.lift, bind, Res.bind, pure, conf, hm, suites_snoc, hlen, hpair]

/-- One more option. -/
theorem step_arg (E : Env) (d : Bytes) (l : List Opt) (c : Byte) (v : Bytes) (h : c ∈ withArg) (hn : NoNul v) (hl : OkOpts E l) :
    Stepped E d l c v (step E (conf E d l) (.arg c v)) := by
  simp only [withArg, List.mem_cons, List.not_mem_nil, or_false] at h
  have triv (c : Byte) (hc : ArgOk E l c v) (r : Res Opts) (hr : r = .ok (conf E d (l ++ [.arg c v]))) : Stepped E d l c v r :=
    ⟨fun _ => hr, fun g => absurd hc g⟩
  rcases h with rfl | rfl | rfl | rfl | rfl | rfl | rfl | rfl | rfl | rfl | rfl | rfl | rfl | rfl
  · exact step_p E d l v hn
  · exact step_U E d l v hn
  · exact triv _ (by simp [ArgOk]) _ (by rw [conf_ext]; simp [step, argOpt, conf])
  · exact step_m E d l v hn
  · exact step_M E d l v hn
  · exact triv _ (by simp [ArgOk]) _ (by rw [conf_ext]; simp [step, argOpt, conf])
  · exact triv _ (by simp [ArgOk]) _ (by rw [conf_ext]; simp [step, argOpt, conf])
  · exact step_d E d l v hl
  · exact step_f E d l v hl
  · exact step_a E d l v
  · exact step_e E d l v hn
  · exact step_c E d l v hn hl
  · exact triv _ (by simp [ArgOk]) _ (by rw [conf_ext]; simp [step, argOpt, conf])
  · exact triv _ (by simp [ArgOk]) _ (by rw [conf_ext]; simp [step, argOpt, conf])

theorem fold_conf (E : Env) (d : Bytes) (l : List Opt) (hk : ∀ x ∈ l, Known x) :
    (OkOpts E l → fold E (conf E d []) l = .ok (conf E d l)) ∧ (¬ OkOpts E l → fold E (conf E d []) l = .exit 100) := by
  suffices H : ∀ n, ∀ l : List Opt, l.length = n → (∀ x ∈ l, Known x) →
      (OkOpts E l → fold E (conf E d []) l = .ok (conf E d l)) ∧ (¬ OkOpts E l → fold E (conf E d []) l = .exit 100) from
    H _ l rfl hk
  intro n
  induction n with
  | zero =>
    intro l hl _
    obtain rfl := List.eq_nil_of_length_eq_zero hl
    exact ⟨fun _ => rfl, fun h => absurd ⟨by simp [values], by simp [values], by simp [values], by simp [values], by simp [values],
      by simp [values], by simp [values], by simp [values], by simp [values], by simp [values], by simp [values]⟩ h⟩
  | succ n ih =>
    intro l hl hk
    rcases List.eq_nil_or_concat l with rfl | ⟨l, x, rfl⟩
    · simp at hl
    · rw [List.concat_eq_append] at *
      simp only [List.length_append, List.length_cons, List.length_nil] at hl
      have ih := ih l (by omega) (fun y hy => hk y (by simp [hy]))
      have hx := hk x (by simp)
      rw [fold_append]
      cases x with
      | flag c =>
        rw [valid_flag]
        refine ⟨fun h => ?_, fun h => ?_⟩
        · rw [ih.1 h]; simp [fold, step_flag E d l c hx]
        · rw [ih.2 h]
      | arg c v =>
        rw [valid_arg]
        refine ⟨fun ⟨h, g⟩ => ?_, fun h => ?_⟩
        · rw [ih.1 h]; simp [fold, (step_arg E d l c v hx.1 hx.2 h).1 g]
        · by_cases h1 : OkOpts E l
          · rw [ih.1 h1]
            simp [fold, (step_arg E d l c v hx.1 hx.2 h1).2 (fun g => h ⟨h1, g⟩)]
          · rw [ih.2 h1]

/-! ### From any state -/

/-- No undefined behaviour; the process can only end with 100. -/
def Tame (r : Res α) : Prop := r ≠ .ub ∧ ∀ s, r = .exit s → s = 100

theorem tame_ok (a : α) : Tame (.ok a) := ⟨by simp, by simp⟩
theorem tame_exit : Tame (.exit 100 : Res α) := ⟨by simp, by simp⟩
theorem tame_orDie (o : Opts) (p : Bool × Ctx) : Tame (orDie o (.ok p)) := by
  obtain ⟨b, c⟩ := p
  cases b
  · exact tame_exit
  · exact tame_ok _

theorem cipher_add_total (c : Ctx) (x : Bytes) (hx : NoNul x) : ∃ p, tls_cipher_add c (x ++ [0]) = .ok p := by
  rw [cipher_add_eq c x hx]
  simp only []
  repeat' split
  all_goals exact ⟨_, rfl⟩

theorem certfile_add_total (b : Bool) (c : Ctx) (x : Bytes) : ∃ p, tls_certfile_add b c x = .ok p := by
  unfold tls_certfile_add
  repeat' split
  · exact ⟨_, rfl⟩
  · exact ⟨_, rfl⟩
  · omega

theorem step_tame (E : Env) (o : Opts) (x : Opt) (hx : Known x) : Tame (step E o x) := by
  cases x with
  | flag c =>
    obtain ⟨o', h⟩ := flagOpt_some o hx
    simp only [step, h]; exact tame_ok _
  | arg c v =>
    obtain ⟨h, hn⟩ := hx
    simp only [withArg, List.mem_cons, List.not_mem_nil, or_false] at h
    rcases h with rfl | rfl | rfl | rfl | rfl | rfl | rfl | rfl | rfl | rfl | rfl | rfl | rfl | rfl
    · change Tame (pp_incoming v o)
      unfold pp_incoming
      rw [str_equal_ok _ v (by decide) hn, str_equal_ok _ v (by decide) hn]
      simp only [Res.lift, bind, Res.bind, pure]
      repeat' split
      all_goals first | exact tame_ok _ | exact tame_exit
    · change Tame (certuser_add v o)
      unfold certuser_add
      rw [str_equal_ok _ v (by decide) hn, str_equal_ok _ v (by decide) hn]
      simp only [Res.lift, bind, Res.bind, pure]
      repeat' split
      all_goals first | exact tame_ok _ | exact tame_exit
    · exact tame_ok _
    · change Tame (orDie o _); rw [setmin_ok _ v hn]; exact tame_orDie _ _
    · change Tame (orDie o _); rw [setmax_ok _ v hn]; exact tame_orDie _ _
    · exact tame_ok _
    · exact tame_ok _
    · change Tame (certfile_add_dir E v o)
      unfold certfile_add_dir
      obtain ⟨p, hp⟩ := certfile_add_total true o.ctx v
      rw [hp]
      repeat' split
      all_goals first | exact tame_exit | exact tame_orDie _ _
    · change Tame (certfile_add_file E v o)
      unfold certfile_add_file
      obtain ⟨p, hp⟩ := certfile_add_total false o.ctx v
      rw [hp]
      repeat' split
      all_goals first | exact tame_exit | exact tame_orDie _ _
    · change Tame (anchor_add E v _)
      unfold anchor_add
      repeat' split
      all_goals first | exact tame_exit | exact tame_orDie _ _
    · change Tame (orDie o _); rw [ecdhe_add_ok _ _ v hn]; exact tame_orDie _ _
    · change Tame (orDie o _)
      obtain ⟨p, hp⟩ := cipher_add_total o.ctx v hn
      rw [hp]; exact tame_orDie _ _
    · exact tame_ok _
    · exact tame_ok _

theorem fold_tame (E : Env) (o : Opts) (l : List Opt) (hk : ∀ x ∈ l, Known x) : Tame (fold E o l) := by
  induction l generalizing o with
  | nil => exact tame_ok _
  | cons x l ih =>
    have h := step_tame E o x (hk x (by simp))
    simp only [fold]
    cases e : step E o x with
    | ok o' => exact ih o' (fun y hy => hk y (by simp [hy]))
    | exit s => rw [h.2 s e]; exact tame_exit
    | ub => exact absurd e h.1

theorem defaults_conf (E : Env) (d : Bytes) :
    (tls_cipher_defaults (initial d).ctx) = .ok (conf E d []).ctx ∧ { initial d with ctx := (conf E d []).ctx } = conf E d [] := by
  constructor <;> rfl

end Conf
