import Verif.Diag.Model
import Verif.Diag.Spec
import Verif.Log.Errno
/-
C87: what the log says about the end of a TLS connection.
-/
namespace Diag

/-! ### Tables -/

theorem first_mem (t : List (Int × String)) (d : String) (n : Int) :
    (n, first t d n) ∈ t ∨ (first t d n = d ∧ ∀ s, (n, s) ∉ t) := by
  induction t with
  | nil => right; simp [first]
  | cons x t ih =>
    obtain ⟨m, s⟩ := x
    by_cases h : m = n
    · left; simp [first, h]
    · rcases ih with ih | ⟨ih, hn⟩
      · left; simp [first, h, ih]
      · right
        refine ⟨by simp [first, h, ih], ?_⟩
        intro s'
        simp only [List.mem_cons, Prod.mk.injEq, not_or, not_and]
        exact ⟨fun e => absurd e.symm h, hn s'⟩

/-- The texts of a table are distinct, so an entry is known by its text. -/
theorem text_inj {t : List (Int × String)} (ht : (t.map (·.2)).Nodup) {a b : Int} {s : String}
    (ha : (a, s) ∈ t) (hb : (b, s) ∈ t) : a = b := by
  induction t with
  | nil => simp at ha
  | cons x t ih =>
    obtain ⟨m, u⟩ := x
    simp only [List.map_cons, List.nodup_cons] at ht
    have key : ∀ c : Int, (c, s) ∈ t → s ∈ t.map (·.2) := fun c hc => List.mem_map.mpr ⟨(c, s), hc, rfl⟩
    simp only [List.mem_cons, Prod.mk.injEq] at ha hb
    rcases ha with ⟨rfl, rfl⟩ | ha <;> rcases hb with ⟨rfl, hu⟩ | hb
    · rfl
    · exact absurd (key b hb) ht.1
    · subst hu; exact absurd (key a ha) ht.1
    · exact ih ht.2 ha hb

theorem errors_nodup : (errors.map (·.2)).Nodup := by decide +kernel

theorem alerts_nodup : (alerts.map (·.2)).Nodup := by decide +kernel

theorem alert_range (a : Nat) (h : a < 256) :
    tls_alert_str a = (alertName a).getD "unknown_alert" := by
  have := (show ∀ a : Fin 256, tls_alert_str (a.val : Int) = (alertName a.val).getD "unknown_alert" by decide +kernel)
  exact this ⟨a, h⟩

theorem error_range (n : Nat) (h : n < 256) :
    (Known n ↔ tls_error_str n ≠ "unknown") := by
  have := (show ∀ a : Fin 256, ((1 ≤ a.val ∧ a.val ≤ 62 ∧ a.val ≠ 11 ∧ a.val ≠ 30 ∧ a.val ≠ 32 ∧ a.val ≠ 61) ↔
    tls_error_str (a.val : Int) ≠ "unknown") by decide +kernel)
  exact this ⟨n, h⟩

theorem known_mem (n : Nat) (h : Known n) : ((n : Int), tls_error_str n) ∈ errors := by
  have hn : n < 256 := by unfold Known at h; omega
  rcases first_mem errors "unknown" n with h' | ⟨h', _⟩
  · exact h'
  · exact absurd h' ((error_range n hn).mp h)

theorem named_mem (a : Nat) (h : (alertName a).isSome) (ha : a < 256) : ((a : Int), tls_alert_str a) ∈ alerts := by
  rcases first_mem alerts "unknown_alert" a with h' | ⟨h', hn⟩
  · exact h'
  · exfalso
    have : ∀ b : Fin 256, (alertName b.val).isSome → (alerts.map (·.1)).contains (b.val : Int) = true := by decide +kernel
    have h2 := this ⟨a, ha⟩ h
    simp only [List.contains_iff_mem, List.mem_map] at h2
    obtain ⟨⟨x, s⟩, hx, rfl⟩ := h2
    exact hn s hx

/-- No text of one table is in the other, and none says that all is well. -/
theorem tables_apart : ∀ x ∈ errors, x.2 ∉ alerts.map (·.2) ∧ x.2 ≠ "TLS closed normally" ∧ x.2 ≠ "unknown_alert" := by
  decide +kernel

theorem alerts_apart : ∀ x ∈ alerts, x.2 ≠ "TLS closed normally" ∧ x.2 ≠ "unknown_alert" ∧ x.2 ≠ "unknown" := by
  decide +kernel

theorem error_ne_normal (n : Int) : tls_error_str n ≠ "TLS closed normally" := by
  rcases first_mem errors "unknown" n with h | ⟨h, _⟩
  · exact (tables_apart _ h).2.1
  · unfold tls_error_str; rw [h]; decide

theorem alert_ne_normal (n : Int) : tls_alert_str n ≠ "TLS closed normally" := by
  rcases first_mem alerts "unknown_alert" n with h | ⟨h, _⟩
  · exact (alerts_apart _ h).1
  · unfold tls_alert_str; rw [h]; decide

theorem reason_fault (done : Bool) (n : Nat) (h : (Cause.fault n).Ok) :
    tls_engine_close_reason done (Cause.fault n).code =
      (tls_error_str n, if done then some ("TLS error: " ++ tls_error_str n) else none) := by
  obtain ⟨h1, h2⟩ := h
  unfold tls_engine_close_reason Cause.code
  rw [if_neg (by simp only; omega), if_neg (by simp only; omega), if_neg (by simp only; omega)]

theorem reason_received (done : Bool) (a : Nat) (h : (Cause.received a).Ok) :
    tls_engine_close_reason done (Cause.received a).code =
      (tls_alert_str a, if done then some ("TLS received alert: " ++ tls_alert_str a) else none) := by
  have h : a < 256 := h
  unfold tls_engine_close_reason Cause.code
  rw [if_neg (by simp only; omega), if_neg (by simp only; omega), if_pos (by simp only; omega)]
  simp only [show (256 + (a : Int)) - 256 = a by omega]

theorem reason_sent (done : Bool) (a : Nat) :
    tls_engine_close_reason done (Cause.sent a).code =
      (tls_alert_str a, if done then some ("TLS sent alert: " ++ tls_alert_str a) else none) := by
  unfold tls_engine_close_reason Cause.code
  rw [if_neg (by simp only; omega), if_pos (by simp only; omega)]
  simp only [show (512 + (a : Int)) - 512 = a by omega]

/-- The text the code gives for a cause. -/
def text : Cause → String
  | .normal => "TLS closed normally"
  | .fault n => tls_error_str n
  | .received a => tls_alert_str a
  | .sent a => tls_alert_str a

/-- The line the code logs for a cause. -/
def line : Cause → Option String
  | .normal => none
  | .fault n => some ("TLS error: " ++ tls_error_str n)
  | .received a => some ("TLS received alert: " ++ tls_alert_str a)
  | .sent a => some ("TLS sent alert: " ++ tls_alert_str a)

theorem reason_all (done : Bool) (c : Cause) (h : c.Ok) :
    tls_engine_close_reason done c.code = (text c, if done then line c else none) := by
  cases c with
  | normal => simp [tls_engine_close_reason, Cause.code, text, line]
  | fault n => exact reason_fault done n h
  | received a => exact reason_received done a h
  | sent a => exact reason_sent done a

/-! ### C87 -/

/-- C87: the summary says "TLS closed normally" exactly for connections that were
closed normally, and an error line is logged exactly for the others, provided the
handshake had been completed. -/
theorem c87_normal (done : Bool) (c : Cause) (h : c.Ok) :
    ((tls_engine_close_reason done c.code).1 = "TLS closed normally" ↔ c = .normal) ∧
    ((tls_engine_close_reason done c.code).2.isSome ↔ done = true ∧ c ≠ .normal) := by
  cases c with
  | normal => simp [tls_engine_close_reason, Cause.code]
  | fault n =>
    rw [reason_fault done n h]
    cases done <;> simp [error_ne_normal]
  | received a =>
    rw [reason_received done a h]
    cases done <;> simp [alert_ne_normal]
  | sent a =>
    rw [reason_sent done a]
    cases done <;> simp [alert_ne_normal]

example : (Cause.received 40).Ok ∧ tls_engine_close_reason true (Cause.received 40).code =
    ("handshake_failure", some "TLS received alert: handshake_failure") := by
  refine ⟨by simp [Cause.Ok], by decide +kernel⟩

/-- C87: an alert is reported under its name in the RFCs, or as "unknown_alert"
when it has none; the line says who sent it. -/
theorem c87_alert (done : Bool) (a : Nat) (h : a < 256) :
    tls_engine_close_reason done (Cause.received a).code =
      ((alertName a).getD "unknown_alert",
        if done then some ("TLS received alert: " ++ (alertName a).getD "unknown_alert") else none) ∧
    tls_engine_close_reason done (Cause.sent a).code =
      ((alertName a).getD "unknown_alert",
        if done then some ("TLS sent alert: " ++ (alertName a).getD "unknown_alert") else none) := by
  rw [reason_received done a h, reason_sent done a, alert_range a h]
  exact ⟨rfl, rfl⟩

example : tls_engine_close_reason false (Cause.sent 70).code = ("protocol_version", none) := by decide +kernel

/-- C87: every fault of the library's list has a text of its own; any other number
is reported as "unknown". -/
theorem c87_fault (n : Nat) (h : (Cause.fault n).Ok) :
    (Known n ↔ (tls_engine_close_reason true (Cause.fault n).code).1 ≠ "unknown") := by
  rw [reason_fault true n h]
  exact error_range n h.2

example : Known 54 ∧ (tls_engine_close_reason true (Cause.fault 54).code).1 =
    "Certificate is expired or not yet valid." := by
  refine ⟨by unfold Known; omega, by decide +kernel⟩

theorem str_inj {p s t : String} (h : p ++ s = p ++ t) : s = t := by
  have := congrArg String.toList h
  simp only [String.toList_append, List.append_cancel_left_eq] at this
  exact String.toList_inj.mp this

theorem char_ne {p q s t : String} (k : Nat) (hp : k < p.toList.length) (hq : k < q.toList.length)
    (hne : p.toList[k]'hp ≠ q.toList[k]'hq) : p ++ s ≠ q ++ t := by
  intro h
  have h := congrArg (fun x => x.toList[k]?) h
  simp only [String.toList_append] at h
  rw [List.getElem?_append_left hp, List.getElem?_append_left hq, List.getElem?_eq_getElem hp,
    List.getElem?_eq_getElem hq] at h
  exact hne (Option.some.inj h)

/-- C87 (part): after a completed handshake the error line tells the cause: two
causes that have texts of their own are logged alike only when they are the same. -/
theorem c87_line (c c' : Cause) (h : c.Ok) (h' : c'.Ok) (hn : c.Named) (hn' : c'.Named)
    (he : (tls_engine_close_reason true c.code).2 = (tls_engine_close_reason true c'.code).2) : c = c' := by
  have e1 : ∀ s t : String, "TLS error: " ++ s ≠ "TLS received alert: " ++ t := fun s t =>
    char_ne 4 (by decide) (by decide) (by decide)
  have e2 : ∀ s t : String, "TLS error: " ++ s ≠ "TLS sent alert: " ++ t := fun s t =>
    char_ne 4 (by decide) (by decide) (by decide)
  have e3 : ∀ s t : String, "TLS received alert: " ++ s ≠ "TLS sent alert: " ++ t := fun s t =>
    char_ne 4 (by decide) (by decide) (by decide)
  have hnorm := c87_normal true
  cases c <;> cases c' <;>
    simp only [reason_all true _ h, reason_all true _ h', line, text, if_true, Option.some.injEq, reduceCtorEq] at he
  all_goals first
    | rfl
    | exact absurd he (e1 _ _)
    | exact absurd he (e2 _ _)
    | exact absurd he (e3 _ _)
    | exact absurd he.symm (e1 _ _)
    | exact absurd he.symm (e2 _ _)
    | exact absurd he.symm (e3 _ _)
    | skip
  · rename_i n n'
    have := text_inj errors_nodup (known_mem n hn) (str_inj he ▸ known_mem n' hn')
    congr 1; omega
  · rename_i n n'
    have := text_inj alerts_nodup (named_mem n hn h) (str_inj he ▸ named_mem n' hn' h')
    congr 1; omega
  · rename_i n n'
    have := text_inj alerts_nodup (named_mem n hn h) (str_inj he ▸ named_mem n' hn' h')
    congr 1; omega

example : (Cause.fault 7).Ok ∧ (Cause.fault 7).Named ∧ (Cause.sent 20).Ok ∧ (Cause.sent 20).Named ∧
    (tls_engine_close_reason true (Cause.fault 7).code).2 ≠ (tls_engine_close_reason true (Cause.sent 20).code).2 := by
  refine ⟨by simp [Cause.Ok], by simp [Cause.Named, Known], by simp [Cause.Ok], by simp [Cause.Named, alertName], by decide +kernel⟩

/-- What the summary keeps of a cause: not who sent an alert. -/
def Cause.blur : Cause → Cause
  | .received a => .sent a
  | c => c

/-- C87 (part): the summary alone, which is all that is logged when the handshake
was not completed, tells the cause up to the question who sent an alert. -/
theorem c87_summary_partial (d d' : Bool) (c c' : Cause) (h : c.Ok) (h' : c'.Ok) (hn : c.Named) (hn' : c'.Named) :
    (tls_engine_close_reason d c.code).1 = (tls_engine_close_reason d' c'.code).1 ↔ c.blur = c'.blur := by
  have ne : ∀ n a : Nat, Known n → (alertName a).isSome → a < 256 → tls_error_str n ≠ tls_alert_str a := by
    intro n a hk hs ha he
    refine (tables_apart _ (known_mem n hk)).1 ?_
    exact List.mem_map.mpr ⟨_, named_mem a hs ha, he.symm⟩
  have ei : ∀ n m : Nat, Known n → Known m → tls_error_str n = tls_error_str m → n = m := by
    intro n m hk hm he
    have := text_inj errors_nodup (known_mem n hk) (he ▸ known_mem m hm)
    omega
  have ai : ∀ a b : Nat, (alertName a).isSome → (alertName b).isSome → a < 256 → b < 256 →
      tls_alert_str a = tls_alert_str b → a = b := by
    intro n m hk hm hn hm' he
    have := text_inj alerts_nodup (named_mem n hk hn) (he ▸ named_mem m hm hm')
    omega
  cases c <;> cases c' <;>
    simp only [reason_all _ _ h, reason_all _ _ h', text, Cause.blur]
  case normal.fault => simp [(error_ne_normal _).symm]
  case normal.received => simp [(alert_ne_normal _).symm]
  case normal.sent => simp [(alert_ne_normal _).symm]
  case fault.normal => simp [error_ne_normal]
  case received.normal => simp [alert_ne_normal]
  case sent.normal => simp [alert_ne_normal]
  case fault.fault n m =>
    constructor
    · intro he; rw [ei n m hn hn' he]
    · intro he; injection he with he; rw [he]
  case fault.received n a => simp [ne n a hn hn' h']
  case fault.sent n a => simp [ne n a hn hn' h']
  case received.fault a n => simp [(ne n a hn' hn h).symm]
  case sent.fault a n => simp [(ne n a hn' hn h).symm]
  all_goals
    rename_i a b
    constructor
    · intro he; rw [ai a b hn hn' h h' he]
    · intro he; injection he with he; rw [he]

/-- C87, what the code does not do: when the handshake was not completed, an alert
received from the peer and the same alert sent to it leave the same log. -/
theorem c87_direction_lost (a : Nat) (h : a < 256) :
    Cause.received a ≠ Cause.sent a ∧
    tls_engine_close_reason false (Cause.received a).code = tls_engine_close_reason false (Cause.sent a).code := by
  rw [reason_received false a h, reason_sent false a]
  exact ⟨by simp, rfl⟩

example : tls_engine_close_reason false (Cause.received 40).code = ("handshake_failure", none) ∧
    tls_engine_close_reason false (Cause.sent 40).code = ("handshake_failure", none) := by decide +kernel

/-- C87: the texts for system errors tell them apart as well: two different errno
values get the same text only when neither is in the table. -/
theorem c87_errno (a b : Int) (h : Log.e_str a = Log.e_str b) : a = b ∨ Log.e_str a = b!"unknown error" := by
  have nd : ∀ p ∈ Log.errnoTable, ∀ q ∈ Log.errnoTable, p.2 = q.2 → p.1 = q.1 := by decide +kernel
  unfold Log.e_str at h ⊢
  cases ha : Log.errnoTable.find? (fun p => p.1 = a) with
  | none => right; rfl
  | some p =>
    cases hb : Log.errnoTable.find? (fun p => p.1 = b) with
    | none => right; simpa [ha, hb] using h
    | some q =>
      left
      simp only [ha, hb] at h
      have h1 := nd p (List.mem_of_find?_eq_some ha) q (List.mem_of_find?_eq_some hb) h
      have h2 := List.find?_some ha
      have h3 := List.find?_some hb
      simp only [decide_eq_true_eq] at h2 h3
      omega

example : Log.e_str 13 = b!"access denied" ∧ Log.e_str 1 = b!"permission denied" := by decide +kernel

/-- C87: no text is hidden behind an earlier one, except that of EWOULDBLOCK, which is EAGAIN on Linux. -/
theorem c87_errno_reached : ∀ p ∈ Log.errnoTable, p.2 ≠ b!"input/output would block" → Log.e_str p.1 = p.2 := by decide +kernel

example : Log.e_str 95 = b!"operation not supported" ∧ Log.e_str 96 = b!"protocol family not supported" ∧
    Log.e_str 11 = b!"temporary failure" := by decide +kernel

/-- C87: the two key types have names of their own. -/
theorem c87_keytype (i : Int) :
    (tls_keytype_str i = "RSA" ↔ i = 1) ∧ (tls_keytype_str i = "EC" ↔ i = 2) := by
  unfold tls_keytype_str
  by_cases h1 : i = 1
  · subst h1; simp
  · by_cases h2 : i = 2
    · subst h2; simp
    · simp [h1, h2]

example : tls_keytype_str 2 = "EC" ∧ tls_keytype_str 0 = "UNKNOWN" := by decide

end Diag
