import Verif.Smtp.TraceLemmas
/-
Every action of the front end is one the specification allows, and the limits
hold all the time.
-/
namespace Smtp
open Str Str.Spec

/-- The length of the log id. (Specification or proof notion; models no line of /repo.) -/
def idLen (cfg : Cfg) : Nat := match cfg.id with
  | some id => id.length
  | none => 0

/-- The accumulators stay within their limits (with line endings, NUL and log id).
(Specification or proof notion; models no line of /repo.) -/
structure Lim (cfg : Cfg) (s : S) : Prop where
  line : s.line.length ≤ 4096 + 2
  cline : s.cline.length ≤ 4096 + idLen cfg + 5
  mailfrom : s.mailfrom.length ≤ 2048 + 1
  rcptto : s.rcptto.length ≤ 2048 + 1
  rcpttodata : s.rcpttodata.length ≤ 65536
  rcptcount : s.rcptcount ≤ 256

/-- The actions so far lead to phase `p`, and the limits hold.
(Specification or proof notion; models no line of /repo.) -/
def At (cfg : Cfg) (tls0 : Bool) (p : Spec.Phase) (s : S) : Prop :=
  Spec.Trace cfg tls0 .start s.log p ∧ Lim cfg s

/-- The process ended properly. (Specification or proof notion; models no line of /repo.) -/
def Dead (cfg : Cfg) (tls0 : Bool) (x : Int) (s : S) : Prop :=
  ∃ p, At cfg tls0 p s ∧ (x = 111 ∧ p ≠ .over ∨ x = 0 ∧ p = .over)

/-- What holds of an outcome. (Specification or proof notion; models no line of /repo.) -/
def Post {α : Type} (r : R α) (Q : α → S → Prop) (E : Int → S → Prop) : Prop :=
  match r with
  | .ok a s => Q a s
  | .die x s => E x s
  | .ub => False

theorem Post.bind {α β : Type} {m : M α} {f : α → M β} {s : S} {Q1 : α → S → Prop} {Q : β → S → Prop}
    {E : Int → S → Prop} (h : Post (m s) Q1 E) (h' : ∀ a s', Q1 a s' → Post (f a s') Q E) :
    Post ((m >>= f) s) Q E := by
  rw [bind_def]
  cases e : m s with
  | ok a s' => rw [e] at h; exact h' a s' h
  | die x s' => rw [e] at h; exact h
  | ub => rw [e] at h; exact h.elim

theorem Post.mono {α : Type} {r : R α} {Q Q' : α → S → Prop} {E : Int → S → Prop} (h : Post r Q E)
    (h' : ∀ a s, Q a s → Q' a s) : Post r Q' E := by
  cases r with
  | ok a s => exact h' a s h
  | die x s => exact h
  | ub => exact h

theorem Post.get {β : Type} {f : S → M β} {s : S} {Q : β → S → Prop} {E : Int → S → Prop}
    (h : Post (f s s) Q E) : Post ((get >>= f) s) Q E := h
theorem Post.modify {β : Type} {g : S → S} {f : Unit → M β} {s : S} {Q : β → S → Prop} {E : Int → S → Prop}
    (h : Post (f () (g s)) Q E) : Post ((modify g >>= f) s) Q E := h
theorem Post.act {β : Type} {a : Act} {f : Unit → M β} {s : S} {Q : β → S → Prop} {E : Int → S → Prop}
    (h : Post (f () { s with log := s.log ++ [a] }) Q E) : Post ((act a >>= f) s) Q E := h

theorem At.step {cfg : Cfg} {tls0 : Bool} {p q : Spec.Phase} {s s' : S} {a : Act} (h : At cfg tls0 p s)
    (hs : Spec.Step cfg tls0 p a q) (hl : s'.log = s.log ++ [a]) (hlim : Lim cfg s') : At cfg tls0 q s' :=
  ⟨by rw [hl]; exact .snoc _ _ _ _ _ h.1 hs, hlim⟩

theorem At.dead {cfg : Cfg} {tls0 : Bool} {p : Spec.Phase} {s : S} (h : At cfg tls0 p s)
    (hp : p ≠ .over := by nofun) : Dead cfg tls0 111 s := ⟨p, h, .inl ⟨rfl, hp⟩⟩

theorem Lim.congr {cfg : Cfg} {s s' : S} (h : Lim cfg s) (h1 : s'.line = s.line) (h2 : s'.cline = s.cline)
    (h3 : s'.mailfrom = s.mailfrom) (h4 : s'.rcptto = s.rcptto) (h5 : s'.rcpttodata = s.rcpttodata)
    (h6 : s'.rcptcount = s.rcptcount) : Lim cfg s' := by
  obtain ⟨a, b, c, d, e, f⟩ := h
  exact ⟨h1 ▸ a, h2 ▸ b, h3 ▸ c, h4 ▸ d, h5 ▸ e, h6 ▸ f⟩

variable {cfg : Cfg} {tls0 : Bool}

theorem At.congr {p : Spec.Phase} {s s' : S} (h : At cfg tls0 p s) (h0 : s'.log = s.log) (h1 : s'.line = s.line)
    (h2 : s'.cline = s.cline) (h3 : s'.mailfrom = s.mailfrom) (h4 : s'.rcptto = s.rcptto)
    (h5 : s'.rcpttodata = s.rcpttodata) (h6 : s'.rcptcount = s.rcptcount) : At cfg tls0 p s' :=
  ⟨h0 ▸ h.1, h.2.congr h1 h2 h3 h4 h5 h6⟩

theorem write_post (s : S) : Post (write s) (fun _ s' => ∃ w, s' = { s with wr := w })
    (fun x s' => x = 111 ∧ ∃ w, s' = { s with wr := w }) := by
  unfold write
  cases s.wr with
  | nil => exact ⟨s.wr, rfl⟩
  | cons b t => cases b with
    | true => exact ⟨t, rfl⟩
    | false => exact ⟨rfl, t, rfl⟩

theorem write_at {p : Spec.Phase} {s : S} (h : At cfg tls0 p s) (hp : p ≠ .over := by nofun) :
    Post (write s) (fun _ s' => ∃ w, s' = { s with wr := w }) (Dead cfg tls0) := by
  have := write_post s
  cases e : write s with
  | ok a s' => rw [e] at this; exact this
  | ub => rw [e] at this; exact this
  | die x s' =>
    rw [e] at this
    obtain ⟨hx, w, hs⟩ := this
    subst hx; subst hs
    exact At.dead (h.congr rfl rfl rfl rfl rfl rfl rfl) hp

theorem toChild_at {p q : Spec.Phase} {s : S} {d : Bytes} (h : At cfg tls0 p s)
    (hs : Spec.Step cfg tls0 p (.child (upToNul d)) q) :
    Post (toChild d s) (fun _ s' => ∃ w, s' = { s with wr := w, log := s.log ++ [.child (upToNul d)] } ∧
      At cfg tls0 q s') (Dead cfg tls0) := by
  unfold toChild
  refine Post.bind (write_at h (by rintro rfl; cases hs)) ?_
  rintro _ s' ⟨w, rfl⟩
  exact ⟨w, rfl, h.step hs rfl (h.2.congr rfl rfl rfl rfl rfl rfl)⟩

theorem toClient_at {p q : Spec.Phase} {s : S} {d : Bytes} (h : At cfg tls0 p s)
    (hs : Spec.Step cfg tls0 p (.client (upToNul d)) q) :
    Post (toClient d s) (fun _ s' => ∃ w, s' = { s with wr := w, log := s.log ++ [.client (upToNul d)] } ∧
      At cfg tls0 q s') (Dead cfg tls0) := by
  unfold toClient
  refine Post.bind (write_at h (by rintro rfl; cases hs)) ?_
  rintro _ s' ⟨w, rfl⟩
  exact ⟨w, rfl, h.step hs rfl (h.2.congr rfl rfl rfl rfl rfl rfl)⟩

theorem own_length (cfg : Cfg) (s : Bytes) : (Spec.own cfg s).length ≤ s.length + idLen cfg + 5 := by
  unfold Spec.own Spec.withId idLen
  cases cfg.id <;> simp <;> omega

theorem chomp_length (s : Bytes) : (Spec.chomp s).length ≤ s.length := by
  have h : ∀ (b : Byte) (s : Bytes), (if s.getLast? = some b then s.dropLast else s).length ≤ s.length := by
    intro b s; split <;> simp
  unfold Spec.chomp
  exact Nat.le_trans (h _ _) (h _ _)

theorem formed_length (cfg : Cfg) (append : Option Bytes) (addlogid : Bool) (r h : Bytes) (sep : Byte) (t : Bytes)
    (hr : r = h ++ sep :: t) (hl : r.length ≤ 4096)
    (ha : Spec.code r = 250 → ∀ a, append = some a → r.length + a.length ≤ 4096) :
    (formed cfg append addlogid r h sep t).length ≤ 4096 + idLen cfg + 5 := by
  have key : ∀ base : Bytes, base.length ≤ 4096 →
      (if addlogid ∧ cfg.id.isSome then Spec.own cfg (Spec.chomp base) else base).length ≤ 4096 + idLen cfg + 5 := by
    intro base hb
    split
    · have := own_length cfg (Spec.chomp base); have := chomp_length base; omega
    · omega
  unfold formed
  apply key
  cases append with
  | none => exact hl
  | some a =>
    simp only []
    split
    · rename_i hc
      have := ha hc a rfl
      rw [hr] at this
      simp at this ⊢; omega
    · exact hl

theorem smtpline_at {p : Spec.Phase} {q : Bytes → Spec.Phase} {s : S} (append : Option Bytes) (addlogid : Bool)
    (h : At cfg tls0 p s)
    (hs : ∀ r h sep t, Spec.Reply r h sep t → Spec.Step cfg tls0 p (.reply r) (q r)) (hp : p ≠ .over := by nofun) :
    Post (smtpline cfg append addlogid s) (fun code s' => ∃ r h sep t rest, Spec.Reply r h sep t ∧
      code = toU64 (Spec.code r) ∧ s.cin = r ++ rest ∧
      s' = { s with cin := rest, cline := formed cfg append addlogid r h sep t, log := s.log ++ [.reply r] } ∧
      At cfg tls0 (q r) s') (Dead cfg tls0) := by
  have := smtpline_inv cfg append addlogid s
  cases e : smtpline cfg append addlogid s with
  | ub => rw [e] at this; exact this
  | die x s' =>
    rw [e] at this
    obtain ⟨rfl, cin, cline, h1, _, h2⟩ := this
    have hl : ∀ s' : S, s'.line = s.line → s'.cline = cline → s'.mailfrom = s.mailfrom →
        s'.rcptto = s.rcptto → s'.rcpttodata = s.rcpttodata → s'.rcptcount = s.rcptcount → Lim cfg s' := by
      intro s' a1 a2 a3 a4 a5 a6
      obtain ⟨b1, b2, b3, b4, b5, b6⟩ := h.2
      exact ⟨a1 ▸ b1, by rw [a2]; omega, a3 ▸ b3, a4 ▸ b4, a5 ▸ b5, a6 ▸ b6⟩
    rcases h2 with h2 | ⟨r, hh, sep, t, a, h3, _, _, _, h4⟩
    · refine ⟨p, ⟨?_, hl s' ?_ ?_ ?_ ?_ ?_ ?_⟩, .inl ⟨rfl, hp⟩⟩ <;> rw [h2]
      exact h.1
    · refine ⟨q r, h.step (hs r hh sep t h3) (by rw [h4]) (hl s' ?_ ?_ ?_ ?_ ?_ ?_), .inl ⟨rfl, ?_⟩⟩
      case refine_7 =>
        intro e
        have := hs r hh sep t h3
        rw [e] at this
        cases this
      all_goals rw [h4]
  | ok code s' =>
    rw [e] at this
    obtain ⟨r, hh, sep, t, rest, h1, h2, h3, h4, h5, h6⟩ := this
    refine ⟨r, hh, sep, t, rest, h1, h4, h2, h6, ?_⟩
    subst h6
    refine h.step (hs r hh sep t h1) rfl ?_
    obtain ⟨b1, b2, b3, b4, b5, b6⟩ := h.2
    exact ⟨b1, formed_length cfg append addlogid r hh sep t h1.2.2.1 h3 h5, b3, b4, b5, b6⟩

theorem readline_at {p : Spec.Phase} {q : Bytes → Spec.Phase} {s : S} (h : At cfg tls0 p s)
    (hs : ∀ raw : Bytes, raw.length ≤ 4096 → c! '\n' ∉ raw → Spec.Step cfg tls0 p (.line raw) (q raw)) :
    Post (readline s) (fun _ s' => ∃ raw buf net, raw.length ≤ 4096 ∧ c! '\n' ∉ raw ∧
      buf.length + evBytes net < avail s ∧ stream s = raw ++ c! '\n' :: (buf ++ evStream net) ∧
      s' = { s with buf := buf, net := net, line := Spec.forward raw, log := s.log ++ [.line raw] } ∧
      At cfg tls0 (q raw) s') (Dead cfg tls0) := by
  have := readline_inv s
  cases e : readline s with
  | ub => rw [e] at this; exact this
  | die x s' =>
    rw [e] at this
    obtain ⟨rfl, buf, net, line, h1, h2, _⟩ := this
    subst h2
    obtain ⟨b1, b2, b3, b4, b5, b6⟩ := h.2
    exact ⟨p, ⟨h.1, Nat.le_trans h1 (by omega), b2, b3, b4, b5, b6⟩, .inl ⟨rfl, by rintro rfl; cases hs [] (by simp) (by simp)⟩⟩
  | ok u s' =>
    rw [e] at this
    obtain ⟨raw, rest, buf, net, h1, h2, h3, h4, h5, h6⟩ := this
    refine ⟨raw, buf, net, h3, h2, h5, by rw [h1, h4], h6, ?_⟩
    subst h6
    refine h.step (hs raw h3 h2) rfl ?_
    obtain ⟨b1, b2, b3, b4, b5, b6⟩ := h.2
    exact ⟨forward_length raw h3, b2, b3, b4, b5, b6⟩

/-- A stored address, with its NUL. (Specification or proof notion; models no line of /repo.) -/
def enc : Option Bytes → Bytes
  | none => []
  | some a => a ++ [0]

/-- The session remembers what the specification says.
(Specification or proof notion; models no line of /repo.) -/
structure Env (c : Spec.Ctx) (s : S) : Prop where
  ctl : s.ctl = c.tls
  sender : s.mailfrom = enc c.sender
  rcpt : s.rcptto = enc c.rcpt
  nsender : ∀ a, c.sender = some a → NoNul a
  nrcpt : ∀ a, c.rcpt = some a → NoNul a

theorem Env.congr {c : Spec.Ctx} {s s' : S} (h : Env c s) (h1 : s'.ctl = s.ctl)
    (h2 : s'.mailfrom = s.mailfrom) (h3 : s'.rcptto = s.rcptto) : Env c s' := by
  obtain ⟨a, b, c, d, e⟩ := h
  exact ⟨h1 ▸ a, h2 ▸ b, h3 ▸ c, d, e⟩

theorem formed_none (r h : Bytes) (sep : Byte) (t : Bytes) (b : Bool) :
    formed cfg none b r h sep t = if b then Spec.tagged cfg r else r := by
  unfold formed Spec.tagged
  cases b <;> simp

/-- After a command: ready again, with some of the input used.
(Specification or proof notion; models no line of /repo.) -/
def Next (cfg : Cfg) (tls0 : Bool) (c : Spec.Ctx) (s s' : S) : Prop :=
  At cfg tls0 (.ready c) s' ∧ Env c s' ∧ avail s' ≤ avail s

/-- `copy`, from a phase in which the line may be forwarded. -/
theorem copy_at {p : Spec.Phase} {c : Spec.Ctx} {q : Bytes → Spec.Phase} {s : S} (logid : Bool) (raw : Bytes)
    (h : At cfg tls0 p s) (hl : s.line = Spec.forward raw)
    (h1 : Spec.Step cfg tls0 p (.child (Spec.forward raw)) (.sent c raw))
    (h2 : ∀ r h sep t, Spec.Reply r h sep t → Spec.Step cfg tls0 (.replied c raw r)
      (.client (upToNul (if logid then Spec.tagged cfg r else r))) (q r)) :
    Post (copy cfg logid s) (fun code s' => ∃ r h sep t rest w cline, Spec.Reply r h sep t ∧
      code = toU64 (Spec.code r) ∧ At cfg tls0 (q r) s' ∧
      s' = { s with wr := w, cin := rest, cline := cline, log := s.log ++ [.child (Spec.forward raw), .reply r,
        .client (upToNul (if logid then Spec.tagged cfg r else r))] }) (Dead cfg tls0) := by
  unfold copy
  refine Post.get (Post.bind (toChild_at h (q := .sent c raw) (by rw [hl, upToNul_forward]; exact h1)) ?_)
  rintro _ s1 ⟨w1, e1, a1⟩
  refine Post.bind (smtpline_at none logid a1 (q := fun r => .replied c raw r)
    fun r h sep t hr => .reply c raw r h sep t hr) ?_
  rintro code s2 ⟨r, hh, sep, t, rest, hr, hc, _, e2, a2⟩
  refine Post.get ?_
  have hcl : s2.cline = if logid then Spec.tagged cfg r else r := by rw [e2]; simp [formed_none]
  refine Post.bind (toClient_at a2 (q := q r) (by rw [hcl]; exact h2 r hh sep t hr)) ?_
  rintro _ s3 ⟨w3, e3, a3⟩
  refine ⟨r, hh, sep, t, rest, w3, s2.cline, hr, hc, a3, ?_⟩
  rw [e3, hcl, e2, e1]
  simp [formed_none, hl, upToNul_forward]

theorem not_grey {c : Spec.Ctx} {raw : Bytes} (h : Spec.verb raw ≠ .rcpt) : ¬ Spec.Greylisted cfg c raw :=
  fun hg => h hg.2.1

theorem default_at {c : Spec.Ctx} {raw : Bytes} {s : S} (h : At cfg tls0 (.got c raw) s) (he : Env c s)
    (hl : s.line = Spec.forward raw) (hv : Spec.verb raw = .default) :
    Post (smtpDefault cfg s) (fun _ s' => ∃ c, Next cfg tls0 c s s') (Dead cfg tls0) := by
  unfold smtpDefault
  refine Post.bind (copy_at false raw h hl (.forward c raw (by simp [hv]) (not_grey (by simp [hv])))
    (q := fun _ => .ready c) fun r _ _ _ _ => .default c raw r hv) ?_
  rintro code s' ⟨r, hh, sep, t, rest, w, cline, hr, hc, a, rfl⟩
  exact ⟨c, a, he.congr rfl rfl rfl, Nat.le_refl _⟩

theorem quit_at {c : Spec.Ctx} {raw : Bytes} {s : S} (h : At cfg tls0 (.got c raw) s)
    (hl : s.line = Spec.forward raw) (hv : Spec.verb raw = .quit) :
    Post (smtpQuit cfg s) (fun _ s' => ∃ c, Next cfg tls0 c s s') (Dead cfg tls0) := by
  unfold smtpQuit
  refine Post.bind (copy_at true raw h hl (.forward c raw (by simp [hv]) (not_grey (by simp [hv])))
    (q := fun _ => .over) fun r _ _ _ _ => .quit c raw r hv) ?_
  rintro code s' ⟨r, hh, sep, t, rest, w, cline, hr, hc, a, e⟩
  exact ⟨.over, a, .inr ⟨rfl, rfl⟩⟩

theorem ehlo_at {c : Spec.Ctx} {raw : Bytes} {s : S} (h : At cfg tls0 (.got c raw) s) (he : Env c s)
    (hl : s.line = Spec.forward raw) (hv : Spec.verb raw = .ehlo) :
    Post (smtpEhlo cfg s) (fun _ s' => ∃ c, Next cfg tls0 c s s') (Dead cfg tls0) := by
  unfold smtpEhlo
  refine Post.get (Post.bind (toChild_at h (q := .sent c raw) (by
    rw [hl, upToNul_forward]; exact .forward c raw (by simp [hv]) (not_grey (by simp [hv])))) ?_)
  rintro _ s1 ⟨w1, e1, a1⟩
  refine Post.bind (smtpline_at _ false a1 (q := fun r => .replied c raw r)
    fun r h sep t hr => .reply c raw r h sep t hr) ?_
  rintro code s2 ⟨r, hh, sep, t, rest, hr, hc, _, e2, a2⟩
  refine Post.get ?_
  refine (toClient_at a2 (q := .ready c) (.ehlo c raw r s2.cline hv ?_)).mono ?_
  · rw [e2]
    simp only [formed, Spec.Ehlo, he.ctl]
    cases c.tls with
    | false => simp
    | true =>
      simp only [if_true, true_and]
      split
      · exact ⟨hh, sep, t, hr, by simp⟩
      · simp
  · rintro _ s3 ⟨w3, e3, a3⟩
    refine ⟨c, a3, he.congr ?_ ?_ ?_, ?_⟩ <;> subst e3 <;> subst e2 <;> subst e1 <;> first | rfl | exact Nat.le_refl _

/-! ### DATA -/

theorem chomp_forward (raw : Bytes) :
    strip (c! '\r') (strip (c! '\n') (Spec.forward raw)) = stored (Spec.content raw) := by
  have h1 : strip (c! '\n') (Spec.forward raw) = stored (Spec.content raw) ++ [c! '\r'] := by
    rw [Spec.forward, strip, if_pos (by simp)]
    rw [show b!"\r\n" = [c! '\r'] ++ [c! '\n'] from rfl, ← List.append_assoc, List.dropLast_concat]
    rfl
  rw [h1, strip, if_pos (by simp), List.dropLast_concat]

theorem stored_dot (l : Bytes) : stored l = b!"." ↔ l = b!"." := by
  constructor
  · intro h
    cases l with
    | nil => simp [stored] at h
    | cons a l =>
      cases l with
      | cons b l => simp [stored] at h
      | nil =>
        simp only [stored, List.map_cons, List.map_nil, List.cons.injEq, and_true] at h ⊢
        split at h
        · simp at h
        · exact h
  · rintro rfl; decide

theorem bodyLoop_at (n : Nat) : ∀ {c : Spec.Ctx} {s : S}, At cfg tls0 (.body c) s → Env c s →
    Post (bodyLoop n s) (fun _ s' => At cfg tls0 (.bodySent c) s' ∧ Env c s' ∧ avail s' ≤ avail s)
      (Dead cfg tls0) := by
  induction n with
  | zero => intro c s h _; exact h.dead
  | succ n ih =>
    intro c s h he
    rw [bodyLoop]
    refine Post.bind (readline_at h (q := fun raw => .bodyLine c raw) fun raw h1 h2 => .bodyLine c raw h1 h2) ?_
    rintro _ s1 ⟨raw, buf, net, hl, hn, hav, _, e1, a1⟩
    refine Post.get ?_
    have hline : s1.line = Spec.forward raw := by rw [e1]
    by_cases hd : Spec.content raw = b!"."
    · have hf : Spec.forward raw = b!".\r\n" := by rw [Spec.forward, hd]; decide
      refine Post.bind (toChild_at a1 (q := .bodySent c) (by
        rw [hline, upToNul_forward, hf]; exact .bodyDot c raw hd)) ?_
      rintro _ s2 ⟨w, e2, a2⟩
      refine Post.modify (Post.get ?_)
      have hl2 : s2.line = Spec.forward raw := by rw [e2]; exact hline
      have hdot : strip (c! '\r') (strip (c! '\n') s2.line) = b!"." := by
        rw [hl2, chomp_forward, stored_dot]; exact hd
      simp only [hdot, ite_app, if_true, pure_def]
      refine ⟨?_, ?_, ?_⟩
      · exact ⟨a2.1, by obtain ⟨b1, b2, b3, b4, b5, b6⟩ := a2.2; exact ⟨by simp, b2, b3, b4, b5, b6⟩⟩
      · subst e2; subst e1; exact he.congr rfl rfl rfl
      · subst e2; subst e1; simp only [avail] at hav ⊢; omega
    · refine Post.bind (toChild_at a1 (q := .body c) (by
        rw [hline, upToNul_forward]; exact .bodyForward c raw hd)) ?_
      rintro _ s2 ⟨w, e2, a2⟩
      refine Post.modify (Post.get ?_)
      have hl2 : s2.line = Spec.forward raw := by rw [e2]; exact hline
      have hdot : ¬ strip (c! '\r') (strip (c! '\n') s2.line) = b!"." := by
        rw [hl2, chomp_forward, stored_dot]; exact hd
      simp only [ite_app, hdot, if_false]
      have hlim := a2.2
      refine (ih (c := c) (s := { s2 with line := strip (c! '\r') (strip (c! '\n') s2.line) }) ⟨a2.1, ?_⟩ ?_).mono ?_
      · obtain ⟨b1, b2, b3, b4, b5, b6⟩ := a2.2
        refine ⟨?_, b2, b3, b4, b5, b6⟩
        simp only []
        rw [hl2, chomp_forward]
        have h1 : (Spec.content raw).length ≤ raw.length := by unfold Spec.content; split <;> simp
        simp [stored]; omega
      · subst e2; subst e1; exact he.congr rfl rfl rfl
      · rintro _ s' ⟨p1, p2, p3⟩
        refine ⟨p1, p2, Nat.le_trans p3 ?_⟩
        subst e2; subst e1; simp only [avail] at hav ⊢; omega

theorem reset_at {p : Spec.Phase} {s : S} (h : At cfg tls0 p s) :
    At cfg tls0 p { s with mailfrom := [], rcptto := [], rcpttodata := [], rcptcount := 0 } := by
  obtain ⟨a, b1, b2, b3, b4, b5, b6⟩ := h
  exact ⟨a, b1, b2, by simp, by simp, by simp, by simp⟩

theorem data_at {c : Spec.Ctx} {raw : Bytes} {s : S} (h : At cfg tls0 (.got c raw) s) (he : Env c s)
    (hl : s.line = Spec.forward raw) (hv : Spec.verb raw = .data) :
    Post (smtpData cfg s) (fun _ s' => ∃ c, Next cfg tls0 c s s') (Dead cfg tls0) := by
  unfold smtpData
  refine Post.get (Post.bind (toChild_at h (q := .sent c raw) (by
    rw [hl, upToNul_forward]; exact .forward c raw (by simp [hv]) (not_grey (by simp [hv])))) ?_)
  rintro _ s1 ⟨w1, e1, a1⟩
  refine Post.bind (smtpline_at none true a1 (q := fun r => .replied c raw r)
    fun r h sep t hr => .reply c raw r h sep t hr) ?_
  rintro code s2 ⟨r, hh, sep, t, rest, hr, hc, _, e2, a2⟩
  refine Post.get ?_
  have hcl : s2.cline = Spec.tagged cfg r := by rw [e2]; simp [formed_none]
  have h354 : code = 354 ↔ Spec.code r = 354 := by rw [hc]; exact toU64_code r 354 (by decide)
  by_cases hcode : code = 354
  · refine Post.bind (toClient_at a2 (q := .body c) (by rw [hcl]; exact .data c raw r hv (h354.mp hcode))) ?_
    rintro _ s3 ⟨w3, e3, a3⟩
    rw [ite_app, if_neg (by simp [hcode])]
    refine Post.get ?_
    have he3 : Env c s3 := by subst e3; subst e2; subst e1; exact he.congr rfl rfl rfl
    have hav3 : avail s3 = avail s := by subst e3; subst e2; subst e1; rfl
    refine Post.bind (bodyLoop_at _ a3 he3) ?_
    rintro _ s4 ⟨a4, he4, hav4⟩
    refine Post.bind (smtpline_at none true a4 (q := fun r => .bodyReplied c r)
      fun r h sep t hr => .bodyReply c r h sep t hr) ?_
    rintro code' s5 ⟨r', hh', sep', t', rest', hr', hc', _, e5, a5⟩
    refine Post.get ?_
    have hcl5 : s5.cline = Spec.tagged cfg r' := by rw [e5]; simp [formed_none]
    refine Post.bind (toClient_at a5 (q := .ready c.clear) (by rw [hcl5]; exact .bodyEnd c r')) ?_
    rintro _ s6 ⟨w6, e6, a6⟩
    refine ⟨c.clear, reset_at a6, ?_, ?_⟩
    · refine ⟨?_, rfl, rfl, ?_, ?_⟩
      · subst e6; subst e5; exact he4.ctl
      · intro a ha; simp [Spec.Ctx.clear] at ha
      · intro a ha; simp [Spec.Ctx.clear] at ha
    · subst e6; subst e5; rw [← hav3]; exact hav4
  · refine Post.bind (toClient_at a2 (q := .ready c) (by
      rw [hcl]; exact .nodata c raw r hv (fun h => hcode (h354.mpr h)))) ?_
    rintro _ s3 ⟨w3, e3, a3⟩
    rw [ite_app, if_pos hcode]
    refine ⟨c, a3, ?_, ?_⟩ <;> subst e3 <;> subst e2 <;> subst e1
    · exact he.congr rfl rfl rfl
    · exact Nat.le_refl _

/-! ### MAIL -/

theorem mail_at {c : Spec.Ctx} {raw : Bytes} {s : S} (h : At cfg tls0 (.got (c.after raw) raw) s) (he : Env c s)
    (hl : s.line = Spec.forward raw) (hv : Spec.verb raw = .mail) :
    Post (smtpMail cfg s) (fun _ s' => ∃ c, Next cfg tls0 c s s') (Dead cfg tls0) := by
  have hc' : c.after raw = { c with sender := Spec.arg b!"mail from:" raw, rcpt := none } := by
    simp [Spec.Ctx.after, hv]
  rw [hc'] at h
  have hcopy : ∀ s' : S, At cfg tls0 (.got { c with sender := Spec.arg b!"mail from:" raw, rcpt := none } raw) s' →
      Env { c with sender := Spec.arg b!"mail from:" raw, rcpt := none } s' →
      s'.line = Spec.forward raw → avail s' = avail s →
      Post ((copy cfg true >>= fun _ => pure () : M Unit) s') (fun _ s'' => ∃ c, Next cfg tls0 c s s'') (Dead cfg tls0) := by
    intro s' ha hee hll hav
    refine Post.bind (copy_at true raw ha hll (.forward _ raw (by simp [hv]) (not_grey (by simp [hv])))
      (q := fun _ => .ready _) fun r _ _ _ _ => .envelope _ raw r (.inl hv)) ?_
    rintro code s'' ⟨r, hh, sep, t, rest, w, cline, hr, hc, a, rfl⟩
    exact ⟨_, a, hee.congr rfl rfl rfl, by rw [← hav]; exact Nat.le_refl _⟩
  obtain ⟨k1, k2⟩ := arg_eq b!"mail from:" raw (by decide) (by decide) (by decide) (by decide)
  have hreset : Env { c with sender := none, rcpt := none } { s with mailfrom := [], rcptto := [], rcpttodata := [], rcptcount := 0 } :=
    ⟨he.ctl, rfl, rfl, fun a ha => by simp at ha, fun a ha => by simp at ha⟩
  obtain ⟨f1, f2, f3, f4, f5, f6, f7, f8, line, f10, f11, f12, f13, f14, f15⟩ := s
  simp only [] at hl
  subst hl
  unfold smtpMail
  refine Post.modify (Post.get ?_)
  simp only []
  rw [ite_app]
  by_cases hlen : (Spec.forward raw).length ≥ 10
  · rw [if_pos hlen]
    obtain ⟨d, e1, e2, e3⟩ := k1 hlen
    simp only [List.cons_append, List.nil_append, List.length_cons, List.length_nil] at e1
    have e1' : case_diffb (Spec.forward raw ++ [0]) 10 b!"mail from:\x00" = .ok d := e1
    rw [bind_def]
    simp only [e1', lift_ok]
    rw [ite_app]
    by_cases hd : d = 0
    · rw [if_pos hd]
      have harg := e3 hd
      simp only [List.length_cons, List.length_nil] at harg
      rw [ite_app]
      by_cases hm : (argument ((Spec.forward raw).drop 10)).length > maxMailfrom
      · rw [if_pos hm]
        exact At.dead (reset_at h)
      · rw [if_neg hm]
        have hm' : (argument ((Spec.forward raw).drop 10)).length ≤ 2048 := by simpa [maxMailfrom] using hm
        refine hcopy _ ?_ ?_ rfl rfl
        · obtain ⟨a, b1, b2, b3, b4, b5, b6⟩ := h
          exact ⟨a, b1, b2, by simp; exact hm', by simp, by simp, by simp⟩
        · refine ⟨he.ctl, by simp [harg, enc], rfl, fun a ha => arg_noNul _ _ _ ha, fun a ha => by simp at ha⟩
    · rw [if_neg hd]
      have hnone : Spec.arg b!"mail from:" raw = none := by
        have : ¬ (Spec.arg b!"mail from:" raw).isSome = true := fun h => hd (e2.mpr h)
        simpa using this
      refine hcopy _ (reset_at h) ?_ rfl rfl
      rw [hnone]; exact hreset
  · rw [if_neg hlen]
    have hnone := k2 hlen
    refine hcopy _ (reset_at h) ?_ rfl rfl
    rw [hnone]; exact hreset

/-! ### RCPT -/

theorem remember_at {c : Spec.Ctx} {raw : Bytes} {s : S} (h : At cfg tls0 (.got (c.after raw) raw) s) (he : Env c s)
    (hl : s.line = Spec.forward raw) (hv : Spec.verb raw = .rcpt) :
    Post (rememberRcpt s) (fun _ s' => At cfg tls0 (.got (c.after raw) raw) s' ∧ Env (c.after raw) s' ∧
      s'.line = Spec.forward raw ∧ avail s' = avail s) (Dead cfg tls0) := by
  obtain ⟨k1, k2⟩ := arg_eq b!"rcpt to:" raw (by decide) (by decide) (by decide) (by decide)
  obtain ⟨f1, f2, f3, f4, f5, f6, f7, f8, line, f10, f11, f12, f13, f14, f15⟩ := s
  simp only [] at hl
  subst hl
  unfold rememberRcpt
  refine Post.get ?_
  simp only []
  rw [ite_app]
  by_cases hlen : (Spec.forward raw).length ≥ 8
  · rw [if_pos hlen]
    obtain ⟨d, e1, e2, e3⟩ := k1 hlen
    have e1' : case_diffb (Spec.forward raw ++ [0]) 8 b!"rcpt to:\x00" = .ok d := e1
    rw [bind_def]
    simp only [e1', lift_ok]
    rw [ite_app]
    by_cases hd : d = 0
    · rw [if_pos hd]
      have harg := e3 hd
      simp only [List.length_cons, List.length_nil] at harg
      have hc' : c.after raw = { c with rcpt := some (argument ((Spec.forward raw).drop 8)) } := by
        simp [Spec.Ctx.after, hv, harg]
      rw [hc'] at h ⊢
      rw [ite_app]
      by_cases hm : (argument ((Spec.forward raw).drop 8)).length > maxRcptto
      · rw [if_pos hm]; exact At.dead h
      · rw [if_neg hm, ite_app]
        by_cases hn : f14 ≥ maxRcpts
        · rw [if_pos hn]; exact At.dead h
        · rw [if_neg hn, ite_app]
          by_cases ht : f13.length + (argument ((Spec.forward raw).drop 8)).length + 1 > maxRcpttodata
          · rw [if_pos ht]; exact At.dead h
          · rw [if_neg ht]
            simp only [maxRcptto, maxRcpts, maxRcpttodata] at hm hn ht
            refine ⟨?_, ?_, rfl, rfl⟩
            · obtain ⟨a, b1, b2, b3, b4, b5, b6⟩ := h
              exact ⟨a, b1, b2, b3, by simp; omega, by simp; omega, by simp; omega⟩
            · exact ⟨he.ctl, he.sender, rfl, he.nsender, fun a ha => by
                simp only [Option.some.injEq] at ha; subst ha; exact arg_noNul _ _ _ harg⟩
    · rw [if_neg hd]
      have hnone : Spec.arg b!"rcpt to:" raw = none := by
        have : ¬ (Spec.arg b!"rcpt to:" raw).isSome = true := fun h => hd (e2.mpr h)
        simpa using this
      have hc' : c.after raw = c := by simp [Spec.Ctx.after, hv, hnone]
      rw [hc'] at h ⊢
      exact ⟨h, he, rfl, rfl⟩
  · rw [if_neg hlen]
    have hnone := k2 hlen
    have hc' : c.after raw = c := by simp [Spec.Ctx.after, hv, hnone]
    rw [hc'] at h ⊢
    exact ⟨h, he, rfl, rfl⟩

theorem greyWrite_post (s : S) : match greyWrite cfg s with
    | .ok true s' => ∃ w, s' = { s with gwr := w }
    | .ok false s' => cfg.closed = false ∧ ∃ w, s' = { s with gwr := w }
    | .die x s' => x = 111 ∧ ∃ w, s' = { s with gwr := w }
    | .ub => False := by
  unfold greyWrite
  cases s.gwr with
  | nil => exact ⟨s.gwr, rfl⟩
  | cons b t => cases b with
    | true => exact ⟨t, rfl⟩
    | false =>
      simp only []
      cases hc : cfg.closed with
      | true => exact ⟨rfl, t, rfl⟩
      | false => exact ⟨rfl, t, rfl⟩

theorem greyRead_inv (n : Nat) : ∀ (buf resp : Bytes) (s : S), resp.length ≤ 4096 → c! '\n' ∉ resp →
    match greyRead cfg n buf resp s with
    | .ok none s' => (cfg.closed = false ∧ ∃ g, s' = { s with gin := g }) ∨
        ∃ g a, a.length = 4096 ∧ c! '\n' ∉ a ∧ s' = { s with gin := g, log := s.log ++ [.answer a] }
    | .ok (some a) s' => a.length ≤ 4096 ∧ ∃ g, s' = { s with gin := g }
    | .die x s' => x = 111 ∧ ∃ g, s' = { s with gin := g }
    | .ub => False := by
  induction n with
  | zero => intro buf resp s _ _; exact ⟨rfl, s.gin, rfl⟩
  | succ n ih =>
    intro buf resp s hl hn
    rw [greyRead, bind_def]
    simp only [get_def]
    cases buf with
    | nil =>
      cases hg : s.gin with
      | nil =>
        simp only [ite_app]
        cases hc : cfg.closed with
        | true => exact ⟨rfl, s.gin, rfl⟩
        | false => exact .inl ⟨rfl, s.gin, rfl⟩
      | cons d t =>
        cases d with
        | nil =>
          simp only [bind_def, modify_def, ite_app]
          cases hc : cfg.closed with
          | true => exact ⟨rfl, t, rfl⟩
          | false => exact .inl ⟨rfl, t, rfl⟩
        | cons b d =>
          simp only [bind_def, modify_def]
          exact ih (b :: d) resp { s with gin := t } hl hn
    | cons ch buf =>
      simp only [ite_app]
      by_cases hm : resp.length ≥ maxLine
      · rw [if_pos hm]
        simp only [bind_def, act_def, pure_def]
        simp only [maxLine] at hm
        exact .inr ⟨s.gin, resp, by omega, hn, rfl⟩
      · rw [if_neg hm]
        simp only [maxLine] at hm
        by_cases hch : ch = c! '\n'
        · rw [if_pos hch]
          simp only [pure_def]
          exact ⟨by simp; omega, s.gin, rfl⟩
        · rw [if_neg hch]
          exact ih buf (resp ++ [ch]) s (by simp; omega) (by
            simp only [List.mem_append, List.mem_singleton, not_or]; exact ⟨hn, fun h => hch h.symm⟩)

instance (a : Bytes) : Decidable (Spec.Dunno a) := by unfold Spec.Dunno; infer_instance
instance (a : Bytes) : Decidable (Spec.Rejects a) := by unfold Spec.Rejects; infer_instance

theorem answerIs_eq (resp key : Bytes) (hk : NoNul key) (hlk : lcs key = key) :
    answerIs resp key.length (key ++ [0]) = .ok (decide (key <+: lcs resp)) := by
  unfold answerIs
  by_cases h : resp.length + 1 ≥ key.length
  · obtain ⟨d, d1, d2⟩ := key_diffb key resp hk hlk h
    rw [if_pos h, d1]
    simp [d2]
  · rw [if_neg h]
    congr 1
    symm
    simp only [decide_eq_false_iff_not]
    intro hp
    have := hp.length_le
    simp [lcs] at this
    omega

/-- From phase `p` the line may be forwarded. (Specification or proof notion; models no line of /repo.) -/
def MayPass (cfg : Cfg) (tls0 : Bool) (c : Spec.Ctx) (raw : Bytes) (p : Spec.Phase) : Prop :=
  Spec.Step cfg tls0 p (.child (Spec.forward raw)) (.sent c raw)

theorem greylist_at {c : Spec.Ctx} {raw : Bytes} {s : S} (h : At cfg tls0 (.got c raw) s) (he : Env c s)
    (hg : Spec.Greylisted cfg c raw) :
    Post (greylist cfg s) (fun m s' => (∃ g w l, s' = { s with gin := g, gwr := w, log := l }) ∧ match m with
      | none => ∃ p, At cfg tls0 p s' ∧ MayPass cfg tls0 c raw p
      | some msg => ∃ a, At cfg tls0 (.answered c raw a) s' ∧
          Spec.Step cfg tls0 (.answered c raw a) (.client (upToNul (Spec.own cfg msg))) (.ready c) ∧
          msg.length ≤ 100) (Dead cfg tls0) := by
  have hsame : ∀ (s : S) (g : List Bytes) (w : List Bool) (p : Spec.Phase), At cfg tls0 p s →
      At cfg tls0 p { s with gin := g, gwr := w } := fun s g w p h => h.congr rfl rfl rfl rfl rfl rfl rfl
  unfold greylist
  refine Post.get ?_
  rw [bind_def]
  have hw := greyWrite_post (cfg := cfg) s
  cases e : greyWrite cfg s with
  | ub => rw [e] at hw; exact hw
  | die x s' =>
    rw [e] at hw
    obtain ⟨rfl, w, rfl⟩ := hw
    exact At.dead (hsame _ s.gin w _ h)
  | ok b s1 =>
    rw [e] at hw
    cases b with
    | false =>
      obtain ⟨hc, w, rfl⟩ := hw
      exact ⟨⟨s.gin, w, s.log, rfl⟩, _, hsame _ s.gin w _ h, .unasked c raw hg hc⟩
    | true =>
      obtain ⟨w, rfl⟩ := hw
      simp only [Bool.not_true, Bool.false_eq_true, if_false]
      refine Post.act ?_
      obtain ⟨a, ha⟩ := Option.isSome_iff_exists.mp hg.2.2.1
      obtain ⟨b, hb⟩ := Option.isSome_iff_exists.mp hg.2.2.2
      have hu : ∀ x : Bytes, NoNul x → upToNul (enc (some x)) = x := by
        intro x hx
        have : ∀ l : Bytes, NoNul l → List.takeWhile (fun b : Byte => decide (b ≠ 0)) (l ++ [0]) = l := by
          intro l hl
          induction l with
          | nil => rfl
          | cons y l ih =>
            rw [List.cons_append, List.takeWhile_cons, if_pos (by simpa using hl.head), ih hl.tail]
        exact this x hx
      have hq : request cfg s = Spec.question cfg a b := by
        simp only [request, Spec.question, he.sender, he.rcpt, ha, hb, hu a (he.nsender a ha), hu b (he.nrcpt b hb)]
        rfl
      rw [hq]
      have a1 : At cfg tls0 (.asked c raw) { s with gwr := w, log := s.log ++ [.ask (Spec.question cfg a b)] } :=
        At.step (hsame s s.gin w _ h) (.ask c raw a b hg ha hb) rfl (h.2.congr rfl rfl rfl rfl rfl rfl)
      rw [bind_def]
      have hr := greyRead_inv (cfg := cfg) (greyBytes s.gin + 1) [] []
        { s with gwr := w, log := s.log ++ [.ask (Spec.question cfg a b)] } (by simp) (by simp)
      cases e2 : greyRead cfg (greyBytes s.gin + 1) [] []
          { s with gwr := w, log := s.log ++ [.ask (Spec.question cfg a b)] } with
      | ub => rw [e2] at hr; exact hr
      | die x s' =>
        rw [e2] at hr
        obtain ⟨rfl, g, rfl⟩ := hr
        exact At.dead (hsame _ g w _ a1)
      | ok m s2 =>
        rw [e2] at hr
        cases m with
        | none =>
          rcases hr with ⟨hc, g, rfl⟩ | ⟨g, an, h1, h2, rfl⟩
          · exact ⟨⟨g, w, _, rfl⟩, _, hsame _ g w _ a1, .unanswered c raw hc⟩
          · refine ⟨⟨g, w, _, rfl⟩, .answered c raw an, ?_, .overlong c raw an h1 h2⟩
            exact At.step a1 (.answer c raw an) rfl (h.2.congr rfl rfl rfl rfl rfl rfl)
        | some resp =>
          obtain ⟨hlen, g, rfl⟩ := hr
          simp only []
          refine Post.act ?_
          have a2 : At cfg tls0 (.answered c raw resp) { s with
              gin := g, gwr := w, log := s.log ++ [.ask (Spec.question cfg a b)] ++ [.answer resp] } :=
            At.step a1 (.answer c raw resp) rfl (h.2.congr rfl rfl rfl rfl rfl rfl)
          simp only []
          have kd := answerIs_eq resp b!"action=dunno" (by decide) (by decide)
          have kr := answerIs_eq resp b!"action=reject" (by decide) (by decide)
          have kd' : answerIs resp 12 b!"action=dunno\x00" = .ok (decide (Spec.Dunno resp)) := kd
          have kr' : answerIs resp 13 b!"action=reject\x00" = .ok (decide (Spec.Rejects resp)) := kr
          rw [kd', kr', bind_def]
          simp only [lift_ok, ite_app, decide_eq_true_eq]
          by_cases hnd : Spec.Dunno resp
          · rw [if_pos hnd]
            exact ⟨⟨g, w, _, rfl⟩, _, a2, .pass c raw resp hnd⟩
          · rw [if_neg hnd, bind_def]
            simp only [lift_ok, ite_app, decide_eq_true_eq]
            by_cases hj : Spec.Rejects resp
            · rw [if_pos hj]
              exact ⟨⟨g, w, _, rfl⟩, resp, a2, .refuse c raw resp hnd hj, by decide⟩
            · rw [if_neg hj]
              exact ⟨⟨g, w, _, rfl⟩, resp, a2, .defer c raw resp hnd hj, by decide⟩

theorem enc_ne_nil (o : Option Bytes) : enc o ≠ [] ↔ o.isSome := by
  cases o <;> simp [enc]

theorem rcpt_at {c : Spec.Ctx} {raw : Bytes} {s : S} (h : At cfg tls0 (.got (c.after raw) raw) s) (he : Env c s)
    (hl : s.line = Spec.forward raw) (hv : Spec.verb raw = .rcpt) :
    Post (smtpRcpt cfg s) (fun _ s' => ∃ c, Next cfg tls0 c s s') (Dead cfg tls0) := by
  unfold smtpRcpt
  refine Post.bind (remember_at h he hl hv) ?_
  rintro _ s1 ⟨a1, he1, hl1, hav1⟩
  refine Post.get ?_
  generalize hc' : c.after raw = c' at *
  have hcopy : ∀ (s' : S) (p : Spec.Phase), At cfg tls0 p s' → MayPass cfg tls0 c' raw p → Env c' s' →
      s'.line = Spec.forward raw → avail s' = avail s →
      Post ((copy cfg true >>= fun _ => pure () : M Unit) s') (fun _ s'' => ∃ c, Next cfg tls0 c s s'') (Dead cfg tls0) := by
    intro s' p ha hp hee hll hav
    refine Post.bind (copy_at true raw ha hll hp
      (q := fun _ => .ready c') fun r _ _ _ _ => .envelope c' raw r (.inr hv)) ?_
    rintro code s'' ⟨r, hh, sep, t, rest, w, cline, hr, hc, a, rfl⟩
    exact ⟨c', a, hee.congr rfl rfl rfl, by rw [← hav]; exact Nat.le_refl _⟩
  have hcond : (s1.mailfrom ≠ [] ∧ s1.rcptto ≠ [] ∧ cfg.grey = true) ↔ Spec.Greylisted cfg c' raw := by
    rw [he1.sender, he1.rcpt, enc_ne_nil, enc_ne_nil]
    simp only [Spec.Greylisted, hv, true_and]
    constructor
    · rintro ⟨x, y, z⟩; exact ⟨z, x, y⟩
    · rintro ⟨z, x, y⟩; exact ⟨x, y, z⟩
  by_cases hg : s1.mailfrom ≠ [] ∧ s1.rcptto ≠ [] ∧ cfg.grey = true
  · rw [if_pos hg]
    refine Post.bind (greylist_at a1 he1 (hcond.mp hg)) ?_
    rintro m s2 ⟨⟨g, w, l, e2⟩, hm⟩
    cases m with
    | none =>
      obtain ⟨p, a2, hp⟩ := hm
      refine hcopy s2 p a2 hp ?_ ?_ ?_ <;> subst e2
      · exact he1.congr rfl rfl rfl
      · exact hl1
      · exact hav1
    | some msg =>
      obtain ⟨a, a2, hs, hlen⟩ := hm
      refine Post.modify (Post.get ?_)
      simp only []
      have a3 : At cfg tls0 (.answered c' raw a) { s2 with cline := catlogid cfg msg ++ b!"\r\n" } := by
        obtain ⟨x, b1, b2, b3, b4, b5, b6⟩ := a2
        refine ⟨x, b1, ?_, b3, b4, b5, b6⟩
        have := own_length cfg msg
        have e : Spec.own cfg msg = catlogid cfg msg ++ b!"\r\n" := rfl
        rw [e] at this
        simp only []
        omega
      refine (toClient_at a3 (q := .ready c') hs).mono ?_
      rintro _ s3 ⟨w3, e3, a4⟩
      refine ⟨c', a4, ?_, ?_⟩ <;> subst e3 <;> subst e2
      · exact he1.congr rfl rfl rfl
      · exact Nat.le_of_eq hav1
  · rw [if_neg hg]
    exact hcopy s1 _ a1 (.forward c' raw (by simp [hv]) (fun h => hg (hcond.mpr h))) he1 hl1 hav1

/-! ### STARTTLS -/

theorem drain_le (l t : List Ev) (h : drain l = some t) : evBytes t ≤ evBytes l := by
  induction l with
  | nil => simp only [drain, Option.some.injEq] at h; subst h; simp
  | cons e l ih =>
    cases e with
    | gap => simp only [drain, Option.some.injEq] at h; subst h; simp [evBytes]
    | fail => simp [drain] at h
    | data d =>
      cases d with
      | nil => simp only [drain, Option.some.injEq] at h; subst h; exact Nat.le_refl _
      | cons b d => simp only [drain] at h; have := ih h; simp [evBytes]; omega

theorem starttls_at {c : Spec.Ctx} {raw : Bytes} {s : S} (h : At cfg tls0 (.got c raw) s) (he : Env c s)
    (hv : Spec.verb raw = .starttls) :
    Post (smtpStarttls cfg s) (fun _ s' => ∃ c, Next cfg tls0 c s s') (Dead cfg tls0) := by
  have hown : ∀ (msg : Bytes) (p : Spec.Phase) (s : S), msg.length ≤ 100 → At cfg tls0 p s →
      At cfg tls0 p { s with cline := catlogid cfg msg ++ b!"\r\n" } := by
    intro msg p s hm ha
    obtain ⟨x, b1, b2, b3, b4, b5, b6⟩ := ha
    refine ⟨x, b1, ?_, b3, b4, b5, b6⟩
    have := own_length cfg msg
    have e : Spec.own cfg msg = catlogid cfg msg ++ b!"\r\n" := rfl
    rw [e] at this
    simp only []
    omega
  unfold smtpStarttls
  refine Post.get ?_
  rw [he.ctl]
  cases htls : c.tls with
  | false =>
    rw [ite_app, if_pos (by rfl)]
    refine Post.modify (Post.get ?_)
    refine (toClient_at (hown _ _ _ (by decide) h) (q := .ready c) (.notls c raw hv htls)).mono ?_
    rintro _ s1 ⟨w, e1, a1⟩
    refine ⟨c, a1, ?_, ?_⟩ <;> subst e1
    · exact he.congr rfl rfl rfl
    · exact Nat.le_refl _
  | true =>
    rw [ite_app, if_neg (by simp)]
    refine Post.modify (Post.get ?_)
    refine Post.bind (toClient_at (hown _ _ _ (by decide) h) (q := .offered c) (.tls c raw hv htls)) ?_
    rintro _ s1 ⟨w, e1, a1⟩
    refine Post.bind (write_at a1) ?_
    rintro _ s2 ⟨w2, e2⟩
    have a2 : At cfg tls0 (.offered c) s2 := a1.congr (by rw [e2]) (by rw [e2]) (by rw [e2]) (by rw [e2])
      (by rw [e2]) (by rw [e2]) (by rw [e2])
    refine Post.act (Post.modify ?_)
    have a3 : At cfg tls0 (.requested c) { s2 with log := s2.log ++ [.ctl [0]], ctl := false } :=
      At.step a2 (.request c) rfl (a2.2.congr rfl rfl rfl rfl rfl rfl)
    refine Post.bind (Q1 := fun _ s3 => ∃ t, drain s2.net = some t ∧ s3 = { s2 with
      buf := [], net := t, ctl := false, log := s2.log ++ [.ctl [0]] ++ [.discard (evStream t).length] }) ?_ ?_
    · unfold discard
      simp only []
      cases hd : drain s2.net with
      | none => exact At.dead (a3.congr rfl rfl rfl rfl rfl rfl rfl)
      | some t => exact ⟨t, rfl, rfl⟩
    · rintro _ s3 ⟨t, hd, e3⟩
      have a4 : At cfg tls0 (.drained c) s3 := by
        subst e3; exact At.step a3 (.discard c _) rfl (a3.2.congr rfl rfl rfl rfl rfl rfl)
      refine Post.bind (Q1 := fun _ s4 => ∃ k, s4 = { s3 with acks := k, log := s3.log ++ [.ack 0] }) ?_ ?_
      · unfold readAck
        cases hk : s3.acks with
        | nil => exact At.dead a4
        | cons b k =>
          simp only []
          by_cases hb : b = 0
          · subst hb; rw [if_pos rfl]; exact ⟨k, rfl⟩
          · rw [if_neg hb]
            exact At.dead (At.step a4 (.nack c b hb) rfl (a4.2.congr rfl rfl rfl rfl rfl rfl))
      · rintro _ s4 ⟨k, e4⟩
        have a5 : At cfg tls0 (.acked c) s4 := by
          subst e4; exact At.step a4 (.ack c) rfl (a4.2.congr rfl rfl rfl rfl rfl rfl)
        refine Post.bind (toChild_at a5 (q := .reset c) (.rset c)) ?_
        rintro _ s5 ⟨w5, e5, a6⟩
        refine Post.bind (smtpline_at none true a6 (q := fun _ => .ready ⟨false, none, none⟩)
          fun r h sep t hr => .rsetReply c r h sep t hr) ?_
        rintro code s6 ⟨r, hh, sep, t6, rest, hr, hc, _, e6, a7⟩
        refine ⟨⟨false, none, none⟩, reset_at a7, ?_, ?_⟩
        · refine ⟨?_, rfl, rfl, fun a ha => by simp at ha, fun a ha => by simp at ha⟩
          subst e6; subst e5; subst e4; subst e3; rfl
        · subst e6; subst e5; subst e4; subst e3; subst e2; subst e1
          have := drain_le _ _ hd
          simp only [avail] at this ⊢
          simp only [List.length_nil]
          omega

/-! ### The session -/

theorem after_eq {c : Spec.Ctx} {raw : Bytes} (h1 : Spec.verb raw ≠ .mail) (h2 : Spec.verb raw ≠ .rcpt) :
    c.after raw = c := by
  unfold Spec.Ctx.after
  split <;> simp_all

theorem command_at {c : Spec.Ctx} {s : S} (h : At cfg tls0 (.ready c) s) (he : Env c s) :
    Post (command cfg s) (fun _ s' => ∃ c, At cfg tls0 (.ready c) s' ∧ Env c s' ∧ avail s' < avail s)
      (Dead cfg tls0) := by
  unfold command
  refine Post.bind (readline_at h (q := fun raw => .got (c.after raw) raw)
    fun raw h1 h2 => .line c raw h1 h2) ?_
  rintro _ s1 ⟨raw, buf, net, hl, hn, hav, _, e1, a1⟩
  refine Post.get ?_
  have hline : s1.line = Spec.forward raw := by rw [e1]
  have he1 : Env c s1 := by subst e1; exact he.congr rfl rfl rfl
  have hav1 : avail s1 < avail s := by subst e1; exact hav
  rw [hline, lookup_eq, bind_def]
  simp only [lift_ok]
  have key : Post (run cfg (Spec.verb raw) s1) (fun _ s' => ∃ c, Next cfg tls0 c s1 s') (Dead cfg tls0) := by
    cases hv : Spec.verb raw with
    | quit =>
      rw [after_eq (by simp [hv]) (by simp [hv])] at a1; exact quit_at a1 hline hv
    | data =>
      rw [after_eq (by simp [hv]) (by simp [hv])] at a1; exact data_at a1 he1 hline hv
    | mail => exact mail_at a1 he1 hline hv
    | rcpt => exact rcpt_at a1 he1 hline hv
    | ehlo =>
      rw [after_eq (by simp [hv]) (by simp [hv])] at a1; exact ehlo_at a1 he1 hline hv
    | starttls =>
      rw [after_eq (by simp [hv]) (by simp [hv])] at a1; exact starttls_at a1 he1 hv
    | default =>
      rw [after_eq (by simp [hv]) (by simp [hv])] at a1; exact default_at a1 he1 hline hv
  refine key.mono ?_
  rintro _ s' ⟨c', p1, p2, p3⟩
  exact ⟨c', p1, p2, Nat.lt_of_le_of_lt p3 hav1⟩

theorem commands_at (n : Nat) : ∀ {c : Spec.Ctx} {s : S}, At cfg tls0 (.ready c) s → Env c s →
    Post (commands cfg n s) (fun _ s' => (∃ c, At cfg tls0 (.ready c) s' ∧ Env c s') ∧ avail s' + n ≤ avail s)
      (Dead cfg tls0) := by
  induction n with
  | zero => intro c s h he; exact ⟨⟨c, h, he⟩, Nat.le_refl _⟩
  | succ n ih =>
    intro c s h he
    rw [commands]
    refine Post.bind (command_at h he) ?_
    rintro _ s1 ⟨c1, h1, he1, hav⟩
    refine (ih h1 he1).mono ?_
    rintro _ s2 ⟨p, hav2⟩
    exact ⟨p, by omega⟩

/-- The whole session: every action is allowed, the limits hold, it is free of
undefined behaviour, and it ends by `die`. -/
theorem session_at (net : List Ev) (cin : Bytes) (acks : Bytes) (gin : List Bytes) (wr gwr : List Bool) :
    Post (session cfg (start net cin tls0 acks gin wr gwr)) (fun _ _ => False) (Dead cfg tls0) := by
  have h0 : At cfg tls0 .start (start net cin tls0 acks gin wr gwr) :=
    ⟨.nil _, by simp [start], by simp [start], by simp [start], by simp [start], by simp [start], by simp [start]⟩
  unfold session
  refine Post.bind (Q1 := fun _ s' => At cfg tls0 (.ready ⟨tls0, none, none⟩) s' ∧ Env ⟨tls0, none, none⟩ s') ?_ ?_
  · unfold smtpGreet
    refine Post.bind (smtpline_at none true h0 (q := fun r => .greeting r)
      fun r h sep t hr => .greeting r h sep t hr) ?_
    rintro code s1 ⟨r, hh, sep, t, rest, hr, hc, _, e1, a1⟩
    refine Post.get ?_
    have hcl : s1.cline = Spec.tagged cfg r := by rw [e1]; simp [formed_none]
    refine (toClient_at a1 (q := .ready ⟨tls0, none, none⟩) (by rw [hcl]; exact .greeted r)).mono ?_
    rintro _ s2 ⟨w, e2, a2⟩
    refine ⟨a2, ?_⟩
    subst e2; subst e1
    exact ⟨rfl, rfl, rfl, fun a ha => by simp at ha, fun a ha => by simp at ha⟩
  · rintro _ s1 ⟨a1, he1⟩
    refine Post.get ((commands_at _ a1 he1).mono ?_)
    rintro _ s2 ⟨_, h⟩
    omega

end Smtp
