import Verif.Smtp.Lemmas
/-
Reading the child's replies.
-/
namespace Smtp
open Str Str.Spec

theorem cgetc_cons (s : S) (b : Byte) (t : Bytes) (h : s.cin = b :: t) :
    cgetc s = .ok b { s with cin := t } := by simp [cgetc, h]
theorem cgetc_nil (s : S) (h : s.cin = []) : cgetc s = .die 111 s := by simp [cgetc, h]
theorem clineAppend_ok (s : S) (b : Byte) (h : s.cline.length < 4096) :
    clineAppend b s = .ok () { s with cline := s.cline ++ [b] } := by
  have : ¬ s.cline.length ≥ maxLine := by simp [maxLine]; omega
  simp [clineAppend, bind_def, get_def, ite_app, this, pure_def, modify_def]
theorem clineAppend_full (s : S) (b : Byte) (h : ¬ s.cline.length < 4096) :
    clineAppend b s = .die 111 s := by
  have : s.cline.length ≥ maxLine := by simp [maxLine]; omega
  simp [clineAppend, bind_def, get_def, ite_app, this, die_def]

/-- The session ended while a reply was read. -/
def Cut (s : S) (x : Int) (s' : S) : Prop :=
  x = 111 ∧ ∃ cin cline, cline.length ≤ 4096 ∧ cin.length ≤ s.cin.length ∧
    s' = { s with cin := cin, cline := cline }

theorem Cut.trans {s s1 s' : S} {x : Int} {cin cline : Bytes} (h : Cut s1 x s')
    (e : s1 = { s with cin := cin, cline := cline }) (hl : cin.length ≤ s.cin.length) : Cut s x s' := by
  obtain ⟨h1, cin', cline', h2, h3, h4⟩ := h
  subst e
  exact ⟨h1, cin', cline', h2, Nat.le_trans h3 hl, h4⟩

/-- Read one byte of a reply and store it. -/
def cread : M Byte := do
  let ch ← cgetc
  clineAppend ch
  pure ch

theorem cread_inv (s : S) (h : s.cline.length ≤ 4096) : match cread s with
    | .ok b s' => ∃ t, s.cin = b :: t ∧ s' = { s with cin := t, cline := s.cline ++ [b] } ∧
        s.cline.length + 1 ≤ 4096
    | .die x s' => Cut s x s'
    | .ub => False := by
  cases hc : s.cin with
  | nil => simp only [cread, bind_def, cgetc_nil s hc]; exact ⟨rfl, _, _, h, Nat.le_refl _, rfl⟩
  | cons b t =>
    simp only [cread, bind_def, cgetc_cons s b t hc]
    by_cases hl : s.cline.length < 4096
    · rw [clineAppend_ok _ _ (by exact hl)]; exact ⟨t, rfl, rfl, hl⟩
    · rw [clineAppend_full _ _ (by exact hl)]; exact ⟨rfl, _, _, h, by simp [hc], rfl⟩

theorem cread_ok (s : S) (b : Byte) (t : Bytes) (h : s.cin = b :: t) (hl : s.cline.length < 4096) :
    cread s = .ok b { s with cin := t, cline := s.cline ++ [b] } := by
  simp [cread, bind_def, cgetc_cons s b t h, clineAppend_ok { s with cin := t } b hl, pure_def]

theorem bind_assoc' {α β γ : Type} (m : M α) (f : α → M β) (g : β → M γ) :
    (m >>= f) >>= g = m >>= fun a => f a >>= g := by
  funext s; simp only [bind_def]; cases m s <;> rfl
theorem pure_bind' {α β : Type} (a : α) (f : α → M β) : (pure a >>= f) = f a := rfl

/-- Reading and storing, as the code writes it. -/
theorem cread_bind {α : Type} (f : Byte → M α) :
    (cgetc >>= fun ch => clineAppend ch >>= fun _ => f ch) = cread >>= f := by
  simp only [cread, bind_assoc', pure_bind']

theorem restOfLine_succ (n : Nat) (ch : Byte) :
    restOfLine (n + 1) ch = if ch = c! '\n' then pure () else cread >>= restOfLine n := by
  rw [restOfLine]; simp only [cread_bind]

theorem restOfLine_inv (n : Nat) : ∀ (ch : Byte) (s : S), s.cline.length ≤ 4096 →
    match restOfLine n ch s with
    | .ok _ s' => (ch = c! '\n' ∧ s' = s) ∨ (ch ≠ c! '\n' ∧ ∃ t rest, c! '\n' ∉ t ∧
        s.cin = t ++ c! '\n' :: rest ∧ s.cline.length + t.length + 1 ≤ 4096 ∧
        s' = { s with cin := rest, cline := s.cline ++ t ++ [c! '\n'] })
    | .die x s' => Cut s x s'
    | .ub => False := by
  induction n with
  | zero => intro ch s h; exact ⟨rfl, _, _, h, Nat.le_refl _, rfl⟩
  | succ n ih =>
    intro ch s h
    rw [restOfLine_succ]
    by_cases hch : ch = c! '\n'
    · simp [hch, pure_def]
    · rw [ite_app, if_neg hch, bind_def]
      have hr := cread_inv s h
      cases e : cread s with
      | ub => rw [e] at hr; exact hr
      | die x s' => rw [e] at hr; exact hr
      | ok b s1 =>
        rw [e] at hr
        obtain ⟨t, h1, h2, h3⟩ := hr
        have := ih b s1 (by subst h2; simpa using h3)
        simp only []
        cases e' : restOfLine n b s1 with
        | ub => rw [e'] at this; exact this
        | die x s' =>
          rw [e'] at this
          exact this.trans h2 (by simp [h1])
        | ok u s' =>
          rw [e'] at this
          simp only [hch, false_and, not_false_eq_true, true_and, false_or, ne_eq]
          rcases this with ⟨hb, hs⟩ | ⟨hb, t', rest, q1, q2, q3, q4⟩
          · exact ⟨[], t, by simp, by simp [h1, hb], by simpa using h3, by simp [hs, h2, hb]⟩
          · subst h2
            refine ⟨b :: t', rest, ?_, ?_, ?_, ?_⟩
            · simp only [List.mem_cons, not_or]; exact ⟨fun h => hb h.symm, q1⟩
            · simp only [] at q2; simp [h1, q2]
            · simp at q3 ⊢; omega
            · simp [q4]

theorem restOfLine_ok (n : Nat) : ∀ (ch : Byte) (s : S) (t rest : Bytes), ch ≠ c! '\n' →
    c! '\n' ∉ t → s.cin = t ++ c! '\n' :: rest → s.cline.length + t.length + 1 ≤ 4096 → t.length + 1 < n →
    restOfLine n ch s = .ok () { s with cin := rest, cline := s.cline ++ t ++ [c! '\n'] } := by
  induction n with
  | zero => intro ch s t rest _ _ _ _ h; omega
  | succ n ih =>
    intro ch s t rest hch ht hc hl hn
    rw [restOfLine_succ, ite_app, if_neg hch, bind_def]
    cases t with
    | nil =>
      rw [cread_ok s _ _ hc (by simp at hl; omega)]
      cases n with
      | zero => simp at hn
      | succ n => simp [restOfLine_succ, pure_def]
    | cons b t =>
      simp only [List.mem_cons, not_or] at ht
      simp only [List.length_cons] at hl hn
      rw [cread_ok s b (t ++ c! '\n' :: rest) hc (by omega)]
      simp only []
      rw [ih b _ t rest (fun h => ht.1 h.symm) ht.2 rfl (by simp; omega) (by omega)]
      simp

theorem replyLoop_succ (append : Bool) (code n : Nat) :
    replyLoop append code (n + 1) = cgetc >>= fun ch =>
      clineAppend (if append ∧ code = 250 ∧ ch = c! ' ' then c! '-' else ch) >>= fun _ =>
      if ch ≠ c! '-' then pure ch
      else get >>= fun s => restOfLine (s.cin.length + 2) ch >>= fun _ =>
        cread >>= fun _ => cread >>= fun _ => cread >>= fun _ => replyLoop append code n := by
  rw [replyLoop]
  simp only [cread, bind_assoc', pure_bind']
  congr 1; funext ch
  split <;> rfl

/-- The separator as it is stored. -/
def sepOut (append : Bool) (code : Nat) (sep : Byte) : Byte :=
  if append ∧ code = 250 ∧ sep = c! ' ' then c! '-' else sep

theorem replyLoop_inv (append : Bool) (code n : Nat) : ∀ s : S, s.cline.length ≤ 4096 →
    match replyLoop append code n s with
    | .ok sep s' => ∃ w rest, (∀ a b c, Spec.Head (a :: b :: c :: w)) ∧ sep ≠ c! '-' ∧
        s.cin = w ++ sep :: rest ∧ s.cline.length + w.length + 1 ≤ 4096 ∧
        s' = { s with cin := rest, cline := s.cline ++ w ++ [sepOut append code sep] }
    | .die x s' => Cut s x s'
    | .ub => False := by
  induction n with
  | zero => intro s h; exact ⟨rfl, _, _, h, Nat.le_refl _, rfl⟩
  | succ n ih =>
    intro s h
    rw [replyLoop_succ, bind_def]
    cases hc : s.cin with
    | nil => rw [cgetc_nil s hc]; exact ⟨rfl, _, _, h, Nat.le_refl _, rfl⟩
    | cons ch t =>
      rw [cgetc_cons s ch t hc]
      simp only [bind_def]
      by_cases hl : s.cline.length < 4096
      · rw [clineAppend_ok _ _ (by exact hl)]
        simp only [ite_app]
        by_cases hd : ch = c! '-'
        · subst hd
          simp only [ne_eq, not_true_eq_false, if_false, bind_def, get_def, show ¬ ((45 : Byte) = 32) by decide, and_false]
          have h1 := restOfLine_inv (t.length + 2) (c! '-') { s with cin := t, cline := s.cline ++ [c! '-'] }
            (by simp; omega)
          cases e1 : restOfLine (t.length + 2) (c! '-') { s with cin := t, cline := s.cline ++ [c! '-'] } with
          | ub => rw [e1] at h1; exact h1
          | die x s' => rw [e1] at h1; exact h1.trans rfl (by simp [hc])
          | ok u s1 =>
            rw [e1] at h1
            simp only [show ¬ ((45 : Byte) = 10) by decide, false_and, not_false_eq_true, true_and, false_or,
              ne_eq] at h1
            obtain ⟨t', rest, q1, q2, q3, q4⟩ := h1
            simp only []
            have l1 : s1.cline.length ≤ 4096 := by subst q4; simp at q3 ⊢; omega
            have h2 := cread_inv s1 l1
            cases e2 : cread s1 with
            | ub => rw [e2] at h2; exact h2
            | die x s' => rw [e2] at h2; exact h2.trans (s := s) q4 (by simp [hc, q2]; omega)
            | ok a s2 =>
              rw [e2] at h2
              obtain ⟨r2, p1, p2, p3⟩ := h2
              simp only []
              have h3 := cread_inv s2 (by subst p2; simpa using p3)
              cases e3 : cread s2 with
              | ub => rw [e3] at h3; exact h3
              | die x s' =>
                rw [e3] at h3
                exact h3.trans (s := s) (by rw [p2, q4]) (by subst q4; simp at p1; simp [hc, q2, p1]; omega)
              | ok b s3 =>
                rw [e3] at h3
                obtain ⟨r3, o1, o2, o3⟩ := h3
                simp only []
                have h4 := cread_inv s3 (by subst o2; simpa using o3)
                cases e4 : cread s3 with
                | ub => rw [e4] at h4; exact h4
                | die x s' =>
                  rw [e4] at h4
                  exact h4.trans (s := s) (by rw [o2, p2, q4])
                    (by subst q4; subst p2; simp at p1 o1; simp [hc, q2, p1, o1]; omega)
                | ok c s4 =>
                  rw [e4] at h4
                  obtain ⟨r4, n1, n2, n3⟩ := h4
                  simp only []
                  have := ih s4 (by subst n2; simpa using n3)
                  subst q4; subst p2; subst o2
                  simp only [] at p1 o1 n1 q2
                  subst p1; subst o1; subst n1; subst q2
                  cases e5 : replyLoop append code n s4 with
                  | ub => rw [e5] at this; exact this
                  | die x s' =>
                    rw [e5] at this
                    exact this.trans (s := s) (by rw [n2]) (by simp [hc]; omega)
                  | ok sep s5 =>
                    rw [e5] at this
                    obtain ⟨w, rest', m1, m2, m3, m4, m5⟩ := this
                    subst n2
                    simp only [] at m3
                    refine ⟨c! '-' :: (t' ++ c! '\n' :: a :: b :: c :: w), rest', ?_, m2, ?_, ?_, ?_⟩
                    · intro a' b' c'; exact .more _ _ _ _ _ q1 (m1 a b c)
                    · simp [m3]
                    · simp at m4 ⊢; omega
                    · simp [m5]
        · rw [if_pos hd, pure_def]
          refine ⟨[], t, fun a b c => .last a b c, hd, rfl, by simp; omega, by simp [sepOut]⟩
      · rw [clineAppend_full _ _ (by exact hl)]; exact ⟨rfl, _, _, h, by simp [hc], rfl⟩

theorem replyLoop_ok (append : Bool) (code n : Nat) : ∀ (s : S) (w rest : Bytes) (a b c sep : Byte),
    Spec.Head (a :: b :: c :: w) → sep ≠ c! '-' → s.cin = w ++ sep :: rest →
    s.cline.length + w.length + 1 ≤ 4096 → w.length < n →
    replyLoop append code n s =
      .ok sep { s with cin := rest, cline := s.cline ++ w ++ [sepOut append code sep] } := by
  induction n with
  | zero => intro s w rest a b c sep _ _ _ _ h; omega
  | succ n ih =>
    intro s w rest a b c sep hh hs hc hl hn
    rw [replyLoop_succ, bind_def]
    cases hh with
    | last =>
      simp only [List.nil_append] at hc
      rw [cgetc_cons s sep rest hc]
      simp only [bind_def]
      rw [clineAppend_ok _ _ (by simp at hl ⊢; omega)]
      simp [ite_app, hs, pure_def, sepOut]
    | more _ _ _ t h ht hh =>
      obtain ⟨a', b', c', w', rfl⟩ : ∃ a b c w, h = a :: b :: c :: w := by
        cases hh with
        | last a b c => exact ⟨a, b, c, [], rfl⟩
        | more a b c t h => exact ⟨a, b, c, _, rfl⟩
      simp only [List.cons_append, List.append_assoc] at hc
      simp only [List.length_cons, List.length_append] at hl hn
      rw [cgetc_cons s _ _ hc]
      simp only [bind_def]
      rw [clineAppend_ok _ _ (by simp only []; omega)]
      simp only [ite_app, ne_eq, not_true_eq_false, if_false, bind_def, get_def,
        show ¬ ((45 : Byte) = 32) by decide, and_false]
      rw [restOfLine_ok _ (c! '-') _ t _ (by decide) ht rfl (by simp; omega) (by simp; omega)]
      simp only []
      rw [cread_ok _ a' _ rfl (by simp; omega)]
      simp only []
      rw [cread_ok _ b' _ rfl (by simp; omega)]
      simp only []
      rw [cread_ok _ c' _ rfl (by simp; omega)]
      simp only []
      rw [ih _ w' rest a' b' c' sep hh hs rfl (by simp; omega) (by omega)]
      simp

/-- The code as the program computes it. -/
def ucode (a b c : Byte) : Nat :=
  toU64 ((toU64 ((toU64 ((a.toNat : Int) - 48) : Int) * 10 + ((b.toNat : Int) - 48)) : Int) * 10 +
    ((c.toNat : Int) - 48))

theorem ucode_eq (a b c : Byte) (w : Bytes) : ucode a b c = toU64 (Spec.code (a :: b :: c :: w)) := by
  simp only [ucode, toU64, Spec.code]
  have := a.toNat_lt; have := b.toNat_lt; have := c.toNat_lt
  omega

theorem toU64_code (r : Bytes) (n : Nat) (hn : n < 2 ^ 63) : toU64 (Spec.code r) = n ↔ Spec.code r = n := by
  unfold Spec.code
  split
  · rename_i a b c _
    have := a.toNat_lt; have := b.toNat_lt; have := c.toNat_lt
    simp only [toU64]
    omega
  · simp only [toU64]; omega

theorem smtpline_eq (cfg : Cfg) (append : Option Bytes) (addlogid : Bool) :
    smtpline cfg append addlogid = modify (fun s => { s with cline := [] }) >>= fun _ =>
      get >>= fun s0 => cread >>= fun a => cread >>= fun b => cread >>= fun c =>
      get >>= fun s => replyLoop append.isSome (ucode a b c) (s.cin.length + 1) >>= fun ch =>
      get >>= fun s => restOfLine (s.cin.length + 2) ch >>= fun _ =>
      modify (fun s => { s with log := s.log ++ [.reply (s0.cin.take (s0.cin.length - s.cin.length))] }) >>= fun _ =>
      finish cfg append addlogid (ucode a b c) := by
  simp only [smtpline, cread, bind_assoc', pure_bind', ucode]

/-- A reply as it goes to the client, `append` being the line to add. -/
def formed (cfg : Cfg) (append : Option Bytes) (addlogid : Bool) (r h : Bytes) (sep : Byte) (t : Bytes) : Bytes :=
  let base := match append with
    | some a => if Spec.code r = 250 then h ++ (if sep = c! ' ' then c! '-' else sep) :: t ++ a else r
    | none => r
  if addlogid ∧ cfg.id.isSome then Spec.own cfg (Spec.chomp base) else base

theorem catlogid_strip (cfg : Cfg) (s : Bytes) :
    catlogid cfg (strip (c! '\r') (strip (c! '\n') s)) ++ b!"\r\n" = Spec.own cfg (Spec.chomp s) := rfl

theorem finish_inv (cfg : Cfg) (append : Option Bytes) (addlogid : Bool) (r h : Bytes) (sep : Byte)
    (t : Bytes) (code : Nat) (hcode : code = toU64 (Spec.code r)) (hr : r = h ++ sep :: t) (s : S)
    (hs : s.cline = h ++ sepOut append.isSome code sep :: t) :
    match finish cfg append addlogid code s with
    | .ok c s' => c = code ∧ s' = { s with cline := formed cfg append addlogid r h sep t } ∧
        (Spec.code r = 250 → ∀ a, append = some a → r.length + a.length ≤ 4096)
    | .die x s' => x = 111 ∧ s' = s ∧ ∃ a, append = some a ∧ Spec.code r = 250 ∧ r.length + a.length > 4096
    | .ub => False := by
  have h250 : code = 250 ↔ Spec.code r = 250 := by rw [hcode]; exact toU64_code r 250 (by decide)
  have hlen : s.cline.length = r.length := by rw [hs, hr]; simp
  generalize hlog : (fun st : S => ({ st with cline := (if addlogid ∧ cfg.id.isSome then Spec.own cfg (Spec.chomp st.cline) else st.cline) } : S)) = logid
  have hlog : ∀ st, logid st = { st with cline := (if addlogid ∧ cfg.id.isSome then Spec.own cfg (Spec.chomp st.cline) else st.cline) } := by
    subst hlog; intro; rfl
  have hid : ∀ (st : S), (if addlogid ∧ cfg.id.isSome then
      (modify (fun s => { s with cline := catlogid cfg (strip (c! '\r') (strip (c! '\n') s.cline)) ++ b!"\r\n" })
        >>= fun _ => pure code)
      else pure code : M Nat) st = .ok code (logid st) := by
    intro st
    rw [hlog]
    rw [ite_app]
    by_cases ha : addlogid ∧ cfg.id.isSome
    · rw [if_pos ha]; simp only [bind_def, pure_def, modify_def, catlogid_strip, if_pos ha]
    · rw [if_neg ha]; simp only [pure_def, if_neg ha]
  cases append with
  | none =>
    have hs' : s.cline = r := by simp [hs, hr, sepOut]
    simp only [finish]
    rw [hid, hlog]
    simp only [formed, hs']
    simp
  | some a =>
    by_cases hc : Spec.code r = 250
    · have hc' := h250.mpr hc
      by_cases hg : s.cline.length + a.length > maxLine
      · simp only [finish, bind_def, ite_app, hc', if_true, get_def, hg, die_def]
        exact ⟨trivial, trivial, a, rfl, hc, by rw [hlen] at hg; exact hg⟩
      · have hle : r.length + a.length ≤ 4096 := by rw [hlen] at hg; simpa [maxLine] using hg
        simp only [finish]
        rw [ite_app, if_pos hc']
        simp only [bind_def, get_def, ite_app, hg, if_false, pure_def, modify_def]
        have := hid { s with cline := s.cline ++ a }
        rw [ite_app] at this
        simp only [bind_def, modify_def, pure_def] at this
        rw [this, hlog]
        refine ⟨rfl, ?_, fun _ a' e => by cases e; exact hle⟩
        simp only [formed, hc, if_true, hs, sepOut, hc', Option.isSome_some, true_and]
    · have hc' : ¬ code = 250 := fun h => hc (h250.mp h)
      have hs' : s.cline = r := by
        rw [hs, hr]; simp only [sepOut, hc', false_and, and_false, if_false]
      simp only [finish]
      rw [ite_app, if_neg hc']
      rw [hid, hlog]
      refine ⟨rfl, ?_, fun e => absurd e hc⟩
      simp only [formed, hc, if_false, hs']

/-- `smtpline`, whatever the child sends. -/
theorem smtpline_inv (cfg : Cfg) (append : Option Bytes) (addlogid : Bool) (s : S) :
    match smtpline cfg append addlogid s with
    | .ok code s' => ∃ r h sep t rest, Spec.Reply r h sep t ∧ s.cin = r ++ rest ∧ r.length ≤ 4096 ∧
        code = toU64 (Spec.code r) ∧
        (Spec.code r = 250 → ∀ a, append = some a → r.length + a.length ≤ 4096) ∧
        s' = { s with cin := rest, cline := formed cfg append addlogid r h sep t, log := s.log ++ [.reply r] }
    | .die x s' => x = 111 ∧ (∃ cin cline, cline.length ≤ 4096 ∧ cin.length ≤ s.cin.length ∧
        (s' = { s with cin := cin, cline := cline } ∨
          ∃ r h sep t a, Spec.Reply r h sep t ∧ s.cin = r ++ cin ∧ append = some a ∧ r.length + a.length > 4096 ∧
            s' = { s with cin := cin, cline := cline, log := s.log ++ [.reply r] }))
    | .ub => False := by
  rw [smtpline_eq]
  simp only [bind_def, modify_def, get_def]
  generalize hs0 : ({ s with cline := [] } : S) = s0
  have h1 := cread_inv s0 (by subst hs0; simp)
  cases e1 : cread s0 with
  | ub => rw [e1] at h1; exact h1
  | die x s' =>
    rw [e1] at h1
    obtain ⟨hx, cin, cline, p1, p2, p3⟩ := h1
    subst hs0
    exact ⟨hx, cin, cline, p1, p2, .inl p3⟩
  | ok a s1 =>
    rw [e1] at h1
    obtain ⟨r1, p1, p2, p3⟩ := h1
    simp only []
    have h2 := cread_inv s1 (by subst p2; exact (by simpa using p3))
    cases e2 : cread s1 with
    | ub => rw [e2] at h2; exact h2
    | die x s' =>
      rw [e2] at h2
      subst hs0
      obtain ⟨hx, cin, cline, q1, q2, q3⟩ := h2.trans (s := s) p2 (by simp at p1; simp [p1])
      exact ⟨hx, cin, cline, q1, q2, .inl q3⟩
    | ok b s2 =>
      rw [e2] at h2
      obtain ⟨r2, o1, o2, o3⟩ := h2
      simp only []
      have h3 := cread_inv s2 (by subst o2; exact (by simpa using o3))
      cases e3 : cread s2 with
      | ub => rw [e3] at h3; exact h3
      | die x s' =>
        rw [e3] at h3
        subst hs0; subst p2
        simp only [] at p1 o1
        obtain ⟨hx, cin, cline, q1, q2, q3⟩ := h3.trans (s := s) o2 (by simp [p1, o1]; omega)
        exact ⟨hx, cin, cline, q1, q2, .inl q3⟩
      | ok c s3 =>
        rw [e3] at h3
        obtain ⟨r3, n1, n2, n3⟩ := h3
        simp only []
        subst hs0; subst p2; subst o2
        simp only [] at p1 o1 n1
        subst o1; subst n1
        have h4 := replyLoop_inv append.isSome (ucode a b c) (s3.cin.length + 1) s3
          (by subst n2; exact (by simpa using n3))
        cases e4 : replyLoop append.isSome (ucode a b c) (s3.cin.length + 1) s3 with
        | ub => rw [e4] at h4; exact h4
        | die x s' =>
          rw [e4] at h4
          obtain ⟨hx, cin, cline, q1, q2, q3⟩ := h4.trans (s := s) n2 (by simp [p1]; omega)
          exact ⟨hx, cin, cline, q1, q2, .inl q3⟩
        | ok sep s4 =>
          rw [e4] at h4
          obtain ⟨w, rest, m1, m2, m3, m4, m5⟩ := h4
          simp only []
          subst n2
          simp only [] at m3 m4
          subst m3
          have l4 : s4.cline.length ≤ 4096 := by subst m5; simp at m4 ⊢; omega
          have h5 := restOfLine_inv (s4.cin.length + 2) sep s4 l4
          cases e5 : restOfLine (s4.cin.length + 2) sep s4 with
          | ub => rw [e5] at h5; exact h5
          | die x s' =>
            rw [e5] at h5
            obtain ⟨hx, cin, cline, q1, q2, q3⟩ := h5.trans (s := s) m5 (by simp [p1]; omega)
            exact ⟨hx, cin, cline, q1, q2, .inl q3⟩
          | ok u s5 =>
            rw [e5] at h5
            simp only []
            have key : ∃ t rest', Spec.Reply (a :: b :: c :: w ++ sep :: t) (a :: b :: c :: w) sep t ∧
                s.cin = (a :: b :: c :: w ++ sep :: t) ++ rest' ∧
                (a :: b :: c :: w ++ sep :: t).length ≤ 4096 ∧
                s5 = { s with cin := rest', cline := a :: b :: c :: w ++ sepOut append.isSome (ucode a b c) sep :: t } := by
              rcases h5 with ⟨hb, hs⟩ | ⟨hb, t, rest', k1, k2, k3, k4⟩
              · refine ⟨[], rest, ⟨m1 a b c, m2, rfl, .inl ⟨hb, rfl⟩⟩, by simp [p1], ?_, ?_⟩
                · simp at m4 ⊢; omega
                · rw [hs, m5]; simp
              · subst m5
                simp only [] at k2 k3
                subst k2
                refine ⟨t ++ [c! '\n'], rest', ⟨m1 a b c, m2, rfl, .inr ⟨hb, t, k1, rfl⟩⟩, by simp [p1], ?_, ?_⟩
                · simp at k3 ⊢; omega
                · rw [k4]; simp
            obtain ⟨t, rest', k1, k2, k3, k4⟩ := key
            subst k4
            have htake : s.cin.take (s.cin.length - rest'.length) = a :: b :: c :: w ++ sep :: t := by
              rw [k2, List.length_append, Nat.add_sub_cancel, List.take_left]
            have hfin := finish_inv cfg append addlogid (a :: b :: c :: w ++ sep :: t) (a :: b :: c :: w) sep t
              (ucode a b c) (ucode_eq a b c _) rfl
              { s with cin := rest',
                       cline := a :: b :: c :: w ++ sepOut append.isSome (ucode a b c) sep :: t,
                       log := s.log ++ [.reply (a :: b :: c :: w ++ sep :: t)] } rfl
            simp only [htake]
            cases e6 : finish cfg append addlogid (ucode a b c)
              { s with cin := rest',
                       cline := a :: b :: c :: w ++ sepOut append.isSome (ucode a b c) sep :: t,
                       log := s.log ++ [.reply (a :: b :: c :: w ++ sep :: t)] } with
            | ub => rw [e6] at hfin; exact hfin
            | die x s' =>
              rw [e6] at hfin
              obtain ⟨hx, hs, a', ha, _, hgt⟩ := hfin
              refine ⟨hx, rest', a :: b :: c :: w ++ sepOut append.isSome (ucode a b c) sep :: t, ?_, ?_,
                .inr ⟨_, _, _, _, a', k1, k2, ha, hgt, hs⟩⟩
              · simp at k3 ⊢; omega
              · rw [k2]; simp; omega
            | ok code s' =>
              rw [e6] at hfin
              obtain ⟨hcode, hs, hle⟩ := hfin
              exact ⟨_, _, sep, t, rest', k1, k2, k3, by rw [hcode]; exact ucode_eq a b c _, hle, hs⟩

/-- `smtpline` on a complete reply that fits. -/
theorem smtpline_ok (cfg : Cfg) (append : Option Bytes) (addlogid : Bool) (s : S) (r h : Bytes) (sep : Byte)
    (t rest : Bytes) (hr : Spec.Reply r h sep t) (hc : s.cin = r ++ rest) (hl : r.length ≤ 4096)
    (ha : Spec.code r = 250 → ∀ a, append = some a → r.length + a.length ≤ 4096) :
    smtpline cfg append addlogid s = .ok (toU64 (Spec.code r)) { s with
      cin := rest, cline := formed cfg append addlogid r h sep t, log := s.log ++ [.reply r] } := by
  obtain ⟨hh, hsep, rfl, ht⟩ := hr
  obtain ⟨a, b, c, w, rfl⟩ : ∃ a b c w, h = a :: b :: c :: w := by
    cases hh with
    | last a b c => exact ⟨a, b, c, [], rfl⟩
    | more a b c t h => exact ⟨a, b, c, _, rfl⟩
  simp only [List.cons_append, List.length_cons, List.length_append] at hl
  rw [smtpline_eq]
  simp only [bind_def, modify_def, get_def]
  rw [cread_ok _ a _ (by exact hc) (by simp)]
  simp only []
  rw [cread_ok _ b _ rfl (by simp)]
  simp only []
  rw [cread_ok _ c _ rfl (by simp)]
  simp only []
  rw [replyLoop_ok _ _ _ _ w (t ++ rest) a b c sep hh hsep (by simp) (by simp; omega) (by simp; omega)]
  simp only []
  have h5 : ∀ (n : Nat) (st : S), n = (t ++ rest).length → st.cin = t ++ rest →
      st.cline = a :: b :: c :: w ++ [sepOut append.isSome (ucode a b c) sep] →
      restOfLine (n + 2) sep st =
        .ok () { st with cin := rest, cline := a :: b :: c :: w ++ sepOut append.isSome (ucode a b c) sep :: t } := by
    intro n st e0 e1 e2
    rcases ht with ⟨hs, rfl⟩ | ⟨hs, t', h1, rfl⟩
    · rw [restOfLine_succ, ite_app, if_pos hs, pure_def]
      obtain ⟨b1, b2, b3, b4, b5, b6, b7, b8, b9, b10, b11, b12, b13, b14, b15⟩ := st
      simp at e1 e2
      simp [e1, e2]
    · rw [restOfLine_ok _ sep st t' rest hs h1 (by simp [e1]) (by simp at hl; simp [e2]; omega) (by simp [e0]; omega)]
      simp [e2]
  rw [h5 _ _ rfl rfl (by simp)]
  simp only []
  have htake : s.cin.take (s.cin.length - rest.length) = a :: b :: c :: w ++ sep :: t := by
    rw [hc, List.length_append, Nat.add_sub_cancel, List.take_left]
  simp only [htake]
  have hfin := finish_inv cfg append addlogid (a :: b :: c :: w ++ sep :: t) (a :: b :: c :: w) sep t
    (ucode a b c) (ucode_eq a b c _) rfl
    { s with cin := rest,
             cline := a :: b :: c :: w ++ sepOut append.isSome (ucode a b c) sep :: t,
             log := s.log ++ [.reply (a :: b :: c :: w ++ sep :: t)] } rfl
  cases e6 : finish cfg append addlogid (ucode a b c)
    { s with cin := rest,
             cline := a :: b :: c :: w ++ sepOut append.isSome (ucode a b c) sep :: t,
             log := s.log ++ [.reply (a :: b :: c :: w ++ sep :: t)] } with
  | ub => rw [e6] at hfin; exact hfin.elim
  | die x s' =>
    rw [e6] at hfin
    obtain ⟨_, _, a', h1, h2, h3⟩ := hfin
    have := ha h2 a' h1
    omega
  | ok code s' =>
    rw [e6] at hfin
    obtain ⟨hcode, hs, _⟩ := hfin
    rw [hcode, hs, ucode_eq a b c (w ++ sep :: t)]
    rfl

end Smtp
