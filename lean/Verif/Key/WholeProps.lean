import Verif.Key.Cut
/-
C91: a connection with the keys in another process gets what one with the keys at hand
gets.
-/
namespace Key
open Io Pipe Rw

/-! ### The key side goes on as other code -/

/-- Unless it is still waiting, running `m` comes down to running `m'` from a state with `Q`. -/
def Leads {α : Type} (m : K α) (s : S) (m' : K α) (Q : S → Prop) : Prop :=
  (∃ s', m s = .blocked s') ∨ ∃ s', m s = m' s' ∧ Q s'

theorem Leads.here {α : Type} {m : K α} {s : S} {Q : S → Prop} (h : Q s) : Leads m s m Q := .inr ⟨s, rfl, h⟩

theorem Leads.trans {α : Type} {m m1 m2 : K α} {s : S} {Q1 Q2 : S → Prop} (h : Leads m s m1 Q1) (h2 : ∀ s, Q1 s → Leads m1 s m2 Q2) :
    Leads m s m2 Q2 := by
  rcases h with h | ⟨s1, e, h⟩
  · exact .inl h
  · rcases h2 s1 h with ⟨s2, e2⟩ | ⟨s2, e2, h2⟩
    · exact .inl ⟨s2, e.trans e2⟩
    · exact .inr ⟨s2, e.trans e2, h2⟩

theorem Leads.bind {α β : Type} {m : K α} {f : α → K β} {s : S} {m' : K β} {Q : S → Prop}
    (h : Go m s fun a s => Leads (f a) s m' Q) : Leads (m >>= f) s m' Q := by
  have e : (m >>= f) s = match m s with | .ok a s => f a s | .stop n => .stop n | .blocked n => .blocked n | .ub n => .ub n := rfl
  unfold Go at h
  unfold Leads
  rw [e]
  revert h
  cases m s with
  | ok a s => exact id
  | blocked s => exact fun _ => .inl ⟨s, rfl⟩
  | stop s => exact False.elim
  | ub s => exact False.elim

theorem Go.unbind {α β : Type} {m : K α} {f : α → K β} {s : S} {Q : β → S → Prop} (h : Go (m >>= f) s Q) :
    Go m s fun a s => Go (f a) s Q := by
  unfold Go at h ⊢
  have e : (m >>= f) s = match m s with | .ok a s => f a s | .stop n => .stop n | .blocked n => .blocked n | .ub n => .ub n := rfl
  rw [e] at h
  revert h
  cases m s <;> exact id

/-! ### The records -/

theorem Net.talk_dead (c : Caller) (n : Net.N) (h : Net.Dead n) : Net.Go (Net.talk c) n fun r _ => r = unanswered c := by
  induction c generalizing n with
  | done => exact Net.Go.pure rfl
  | prf label seed rnd next ih =>
    refine Net.Go.bind ((Net.prf_dead 12 label [seed] rnd n h).mono ?_)
    rintro _ n ⟨rfl, h⟩
    exact Net.Go.bind ((ih _ n h).mono fun r n h => Net.Go.pure (by rw [h]; rfl))
  | dec ty ver x next ih =>
    refine Net.Go.bind ((Net.decrypt_dead ty ver x n h).mono ?_)
    rintro _ n ⟨rfl, h⟩
    exact Net.Go.bind ((ih _ n h).mono fun r n h => Net.Go.pure (by rw [h]; rfl))
  | enc ty ver x next ih =>
    refine Net.Go.bind ((Net.encrypt_dead ty ver x n h).mono ?_)
    rintro _ n ⟨rfl, h⟩
    exact Net.Go.bind ((ih _ n h).mono fun r n h => Net.Go.pure (by rw [h]; rfl))

theorem records_go (p : P) (hp : Lawful p) (prf : Nat) (c : Caller) (st : p.σ) (hf : Fits p emptyFails prf st c) (alive : List Bool) :
    ∃ req ans : Bytes,
      (∀ o i n, Net.At o (ans ++ i) n → Net.Go (Net.talk c) n fun r n => r = (atHand p emptyFails prf st c).1 ∧ Net.At (o ++ req) i n) ∧
      (∀ i o l s, KAt (req ++ i) o l s →
        Leads (serve p prf (List.replicate (atHand p emptyFails prf st c).1.length true ++ alive) st) s (serve p prf alive (atHand p emptyFails prf st c).2.2) fun s' =>
          ∃ l', l'.filter Act.isUse = (atHand p emptyFails prf st c).2.1 ∧ KAt i (o ++ ans) (l ++ l') s') ∧
      (∀ A n, Net.Held (ans ++ A) n → Net.Go (Net.talk c) n fun r _ => ∃ j, r = atHandUntil p emptyFails prf j st c) := by
  have step : ∀ {α : Type} (net : Net.M α) (a lost : α) (st st' : p.σ) (op : Act) (w : α → Ans) (next : α → Caller) (rs : List Ans) (us : List Act) (st'' : p.σ)
      (req1 ans1 : Bytes) (F G : Nat → List Ans),
      op.isUse = true → ExchangeOn req1 ans1 net a (serveOne p prf st) st' op → Net.Cuts net ans1 a lost →
      G 0 = w lost :: unanswered (next lost) → (∀ j, G (j + 1) = w a :: F j) →
      (∃ req ans : Bytes,
        (∀ o i n, Net.At o (ans ++ i) n → Net.Go (Net.talk (next a)) n fun r n => r = rs ∧ Net.At (o ++ req) i n) ∧
        (∀ i o l s, KAt (req ++ i) o l s →
          Leads (serve p prf (List.replicate rs.length true ++ alive) st') s (serve p prf alive st'') fun s' =>
            ∃ l', l'.filter Act.isUse = us ∧ KAt i (o ++ ans) (l ++ l') s') ∧
        (∀ A n, Net.Held (ans ++ A) n → Net.Go (Net.talk (next a)) n fun r _ => ∃ j, r = F j)) →
      ∃ req ans : Bytes,
        (∀ o i n, Net.At o (ans ++ i) n → Net.Go (do let y ← net; let r ← Net.talk (next y); return w y :: r) n fun r n =>
          r = w a :: rs ∧ Net.At (o ++ req) i n) ∧
        (∀ i o l s, KAt (req ++ i) o l s →
          Leads (serve p prf (List.replicate (w a :: rs).length true ++ alive) st) s (serve p prf alive st'') fun s' =>
            ∃ l', l'.filter Act.isUse = op :: us ∧ KAt i (o ++ ans) (l ++ l') s') ∧
        (∀ A n, Net.Held (ans ++ A) n → Net.Go (do let y ← net; let r ← Net.talk (next y); return w y :: r) n fun r _ => ∃ j, r = G j) := by
    rintro α net a lost st st' op w next rs us st'' req1 ans1 F G hop ⟨hn, hk⟩ hcut hG0 hG ⟨req2, ans2, hn2, hk2, hc2⟩
    refine ⟨req1 ++ req2, ans1 ++ ans2, fun o i n h => ?_, fun i o l s h => ?_, fun A n h => ?_⟩
    · rw [List.append_assoc] at h
      refine Net.Go.bind ((hn _ _ _ h).mono ?_)
      rintro _ n ⟨rfl, h⟩
      refine Net.Go.bind ((hn2 _ _ _ h).mono ?_)
      rintro _ n ⟨rfl, h⟩
      exact Net.Go.pure ⟨rfl, by rwa [← List.append_assoc]⟩
    · rw [List.append_assoc] at h
      rw [List.length_cons, List.replicate_succ, List.cons_append]
      change Leads (serveOne p prf st >>= fun st => serve p prf (List.replicate rs.length true ++ alive) st) s _ _
      refine Leads.bind ((hk _ _ _ _ h).mono ?_)
      rintro _ s ⟨rfl, l1, l2, e1, e2, h⟩
      refine (hk2 _ _ _ _ h).trans ?_
      rintro s ⟨l', e3, h⟩
      refine Leads.here (Q := fun s => ∃ l', l'.filter Act.isUse = op :: us ∧ KAt i (o ++ (ans1 ++ ans2)) (l ++ l') s) ⟨l1 ++ op :: l2 ++ l', ?_, by simpa only [List.append_assoc] using h⟩
      simp only [List.filter_append, List.filter_cons, hop, if_true, e1, e2, e3, List.nil_append, List.cons_append]
    · rw [List.append_assoc] at h
      refine Net.Go.bind ((hcut.1 _ _ h).mono ?_)
      rintro _ n (⟨rfl, h⟩ | ⟨rfl, h⟩)
      · refine Net.Go.bind ((hc2 _ _ h).mono ?_)
        rintro _ n ⟨j, rfl⟩
        exact Net.Go.pure ⟨j + 1, (hG j).symm⟩
      · refine Net.Go.bind ((Net.talk_dead _ n h).mono ?_)
        rintro _ n rfl
        exact Net.Go.pure ⟨0, hG0.symm⟩
  induction c generalizing st with
  | done =>
    refine ⟨[], [], fun o i n h => Net.Go.pure ⟨rfl, by simpa using h⟩,
      fun i o l s h => Leads.here (Q := fun s => ∃ l', l'.filter Act.isUse = [] ∧ KAt i (o ++ []) (l ++ l') s) ⟨[], rfl, by simpa using h⟩,
      fun A n _ => Net.Go.pure ⟨0, rfl⟩⟩
  | prf label seed rnd next ih =>
    obtain ⟨h1, h2, h3⟩ := hf
    unfold atHand Net.talk
    dsimp only
    exact step (Net.prf 12 label [seed] rnd) _ rnd st st _ Ans.bytes next _ _ _ _ _ _ _ rfl (prf_exchange p prf label seed rnd st h1 h2 (hp.prf ..))
      (Net.prf_cuts label seed rnd _ h1 (hp.prf ..)) rfl (fun j => rfl) (ih _ _ h3)
  | dec ty ver x next ih =>
    obtain ⟨h1, h2, h3, st', y, h4, h5, h6⟩ := hf
    unfold atHand Net.talk
    rw [h4]
    dsimp only
    have hG : ∀ j, atHandUntil p emptyFails prf (j + 1) st (.dec ty ver x next) = .record (emptyFails y) :: atHandUntil p emptyFails prf j st' (next (emptyFails y)) :=
      fun j => by rw [atHandUntil, h4]
    cases y with
    | none =>
      exact step (Net.decrypt ty ver x) none none st st' _ Ans.record next _ _ _ _ _ _ _ rfl (decrypt_failure_exchange p prf ty ver x st st' h1 h2 h3 h4)
        (Net.decrypt_cuts ty ver x [] 0 h3 (by decide) (Nat.zero_le _)) rfl hG (ih _ _ h6)
    | some y =>
      obtain ⟨raw, z⟩ := y
      obtain ⟨g1, g2, g3, g4⟩ := h5 raw z rfl
      cases z with
      | nil =>
        exact step (Net.decrypt ty ver x) none none st st' _ Ans.record next _ _ _ _ _ _ _ rfl (empty_record_exchange p prf ty ver x raw st st' h1 h2 h3 h4 ⟨g1, g2⟩)
          (Net.decrypt_cuts ty ver x [] raw h3 ⟨g1, g2⟩ (Nat.zero_le _)) rfl hG (ih _ _ h6)
      | cons b z =>
        exact step (Net.decrypt ty ver x) (some (raw, b :: z)) none st st' _ Ans.record next _ _ _ _ _ _ _ rfl
          (decrypt_exchange p prf ty ver x (b :: z) raw st st' h1 h2 h3 h4 ⟨g1, g2⟩ g3 g4 (by simp))
          (Net.decrypt_cuts ty ver x (b :: z) raw h3 ⟨g1, g2⟩ g3) rfl hG (ih _ _ h6)
  | enc ty ver x next ih =>
    obtain ⟨h1, h2, h3, st', raw, z, h4, ⟨g1, g2, g3, g4⟩, h6⟩ := hf
    unfold atHand Net.talk
    rw [h4]
    dsimp only
    exact step (Net.encrypt ty ver x) (some (raw, z)) none st st' _ Ans.record next _ _ _ _ _ _ _ rfl
      (encrypt_exchange p prf ty ver x z raw st st' h1 h2 h3 h4 ⟨g1, g2⟩ g3 g4) (Net.encrypt_cuts ty ver x z raw h3 ⟨g1, g2⟩ g3) rfl
      (fun j => by rw [atHandUntil, h4]) (ih _ _ h6)

/-- C91 (records): whatever the engine asks once the secret is agreed, it gets the
answers it would get with the keys at hand, but that a record that opens to nothing is
told as one that does not open (see `c91_same_partial`); the key process uses its secrets for those
questions and nothing else, and is left with the same keys. -/
theorem c91_records (p : P) (hp : Lawful p) (prf : Nat) (c : Caller) (st : p.σ) (hf : Fits p emptyFails prf st c) (alive : List Bool) :
    ∃ req ans : Bytes,
      (∀ o i n, Net.At o (ans ++ i) n → Net.Go (Net.talk c) n fun r n => r = (atHand p emptyFails prf st c).1 ∧ Net.At (o ++ req) i n) ∧
      (∀ i o l s, KAt (req ++ i) o l s →
        Leads (serve p prf (List.replicate (atHand p emptyFails prf st c).1.length true ++ alive) st) s (serve p prf alive (atHand p emptyFails prf st c).2.2) fun s' =>
          ∃ l', l'.filter Act.isUse = (atHand p emptyFails prf st c).2.1 ∧ KAt i (o ++ ans) (l ++ l') s') := by
  obtain ⟨req, ans, h1, h2, -⟩ := records_go p hp prf c st hf alive
  exact ⟨req, ans, h1, h2⟩

/-- C91 (the difference): unless some record opens to nothing, that is what the engine
would be told with the keys at hand. Partial: for a record that opens to nothing (which
TLS allows) it is not, see `c91_empty`. -/
theorem c91_same_partial (p : P) (prf : Nat) (c : Caller) (st : p.σ) (h : Solid p prf st c) :
    atHand p emptyFails prf st c = atHand p plainly prf st c ∧ (Fits p emptyFails prf st c ↔ Fits p plainly prf st c) := by
  have see : ∀ y : Option (Int × Bytes), (∀ raw, y ≠ some (raw, [])) → emptyFails y = y := by
    intro y hy
    match y with
    | none => rfl
    | some (raw, []) => exact absurd rfl (hy raw)
    | some (raw, b :: z) => rfl
  induction c generalizing st with
  | done => exact ⟨rfl, Iff.rfl⟩
  | prf label seed rnd next ih =>
    obtain ⟨e1, e2⟩ := ih _ _ h
    unfold atHand Fits
    dsimp only
    rw [e1, e2]
    exact ⟨rfl, Iff.rfl⟩
  | dec ty ver x next ih =>
    unfold Solid at h
    unfold atHand Fits
    cases hd : p.dec st ty ver x with
    | ub => exact ⟨rfl, by simp⟩
    | ok r =>
      obtain ⟨st', y⟩ := r
      obtain ⟨h1, h2⟩ := h _ _ hd
      obtain ⟨e1, e2⟩ := ih _ _ h2
      dsimp only [plainly, id]
      rw [see y h1, e1]
      refine ⟨rfl, ?_⟩
      constructor
      · rintro ⟨a, b, c, st2, y2, e, g, f⟩
        cases e
        rw [see y h1] at f
        exact ⟨a, b, c, st', y, rfl, g, e2.mp f⟩
      · rintro ⟨a, b, c, st2, y2, e, g, f⟩
        cases e
        refine ⟨a, b, c, st', y, rfl, g, ?_⟩
        rw [see y h1]
        exact e2.mpr f
  | enc ty ver x next ih =>
    unfold Solid at h
    unfold atHand Fits
    cases hd : p.enc st ty ver x with
    | ub => exact ⟨rfl, by simp⟩
    | ok r =>
      obtain ⟨st', y⟩ := r
      obtain ⟨e1, e2⟩ := ih _ _ (h _ _ hd)
      dsimp only
      rw [e1]
      refine ⟨rfl, ?_⟩
      constructor
      · rintro ⟨a, b, c, st2, raw, z, e, g, f⟩
        cases e
        exact ⟨a, b, c, st', raw, z, rfl, g, e2.mp f⟩
      · rintro ⟨a, b, c, st2, raw, z, e, g, f⟩
        cases e
        exact ⟨a, b, c, st', raw, z, rfl, g, e2.mpr f⟩

/-- C91 (where the code departs from it): with the keys at hand the engine would be told
of the empty record and go on; as it is it is told that the record is bad. -/
theorem c91_empty (p : P) (prf ty ver : Nat) (x : Bytes) (raw : Int) (st st' : p.σ) (next : Option (Int × Bytes) → Caller)
    (h : p.dec st ty ver x = .ok (st', some (raw, []))) :
    (atHand p emptyFails prf st (.dec ty ver x next)).1 = .record none :: (atHand p emptyFails prf st' (next none)).1 ∧
    (atHand p plainly prf st (.dec ty ver x next)).1 = .record (some (raw, [])) :: (atHand p plainly prf st' (next (some (raw, [])))).1 := by
  constructor
  · rw [atHand, h]; rfl
  · rw [atHand, h]; rfl

/-! ### The certificates -/

theorem selected_unique {ls a b : List Bytes} {sel : Nat → Prop} (ha : Pem.Selected ls a sel) (hb : Pem.Selected ls b sel) : a = b := by
  obtain ⟨ka, la, sa, rfl⟩ := ha
  obtain ⟨kb, lb, sb, rfl⟩ := hb
  have : ka = kb := by
    refine List.ext_getElem (by omega) fun i h1 h2 => ?_
    have e1 := sa i ka[i] (List.getElem?_eq_getElem h1)
    have e2 := sb i kb[i] (List.getElem?_eq_getElem h2)
    exact Bool.eq_iff_iff.mpr (e1.trans e2.symm)
  rw [this]

theorem load_nonce {cipher : Pem.Stream} {n : Option Bytes} (n' : Option Bytes) {key : Bytes} {e : Pem.Env} {r : Option (Option Bytes × Pem.Ctx)}
    (h : Pem.load cipher n key e = .ok r) : ∃ r', Pem.load cipher n' key e = .ok r' ∧ r'.isSome = r.isSome := by
  unfold Pem.load at h ⊢
  split
  · rename_i h1; rw [if_pos h1] at h; cases h; exact ⟨_, rfl, rfl⟩
  rename_i h1; rw [if_neg h1] at h
  split
  · rename_i h2; rw [h2] at h; cases h; exact ⟨_, rfl, rfl⟩
  rename_i reg size h2
  rw [h2] at h; dsimp only at h
  split
  · rename_i h3; rw [if_pos h3] at h; cases h; exact ⟨_, rfl, rfl⟩
  rename_i h3; rw [if_neg h3] at h
  split
  · rename_i h4; rw [if_pos h4] at h; cases h; exact ⟨_, rfl, rfl⟩
  rename_i h4; rw [if_neg h4] at h
  split
  · rename_i h5; rw [if_pos h5] at h; cases h; exact ⟨_, rfl, rfl⟩
  rename_i h5; rw [if_neg h5] at h
  split
  · rename_i h6; rw [h6] at h; cases h; exact ⟨_, rfl, rfl⟩
  rename_i d h6
  rw [h6] at h; dsimp only at h
  dsimp only
  cases h7 : copyN (List.replicate (size + 1) 0) 0 d size with
  | ub => rw [h7] at h; cases h
  | ok sec =>
    rw [h7] at h
    change (wr sec size 10 >>= _) = _ at h
    change ∃ r', (wr sec size 10 >>= _) = _ ∧ _
    cases h8 : wr sec size 10 with
    | ub => rw [h8] at h; cases h
    | ok sec =>
      rw [h8] at h
      change (Pem.pemparse ⟨sec, size + 1, List.replicate (size + 1) 0, 0⟩ (size + 1) e.line0 e.r1 e.r2 >>= _) = _ at h
      change ∃ r', (Pem.pemparse ⟨sec, size + 1, List.replicate (size + 1) 0, 0⟩ (size + 1) e.line0 e.r1 e.r2 >>= _) = _ ∧ _
      cases h9 : Pem.pemparse ⟨sec, size + 1, List.replicate (size + 1) 0, 0⟩ (size + 1) e.line0 e.r1 e.r2 with
      | ub => rw [h9] at h; cases h
      | ok c =>
        rw [h9] at h
        cases c with
        | none => cases h; exact ⟨_, rfl, rfl⟩
        | some c => cases h; exact ⟨_, rfl, rfl⟩

theorem public_small (p : P) (hp : Lawful p) {ld : LoadEnv} (hld : ld ∈ p.loads) {nonce : Option Bytes} {fn d : Bytes} {nc : Option Bytes × Pem.Ctx} {pub : List Bytes}
    (h : Pem.load p.cipher nonce ld.key (ld.env fn) = .ok (some nc)) (hd : content (ld.env fn) = some d)
    (hpub : Pem.Selected (Pem.usable d) pub (Pem.InCert (Pem.usable d))) : (Pem.text pub).length < 2 ^ 63 := by
  obtain ⟨l1, l2, l3⟩ := hp.loads ld hld fn
  obtain ⟨d', c0, g1, g2, ⟨b, g3⟩, g4⟩ := load_inv h l1 l2 (fun b n h => (l3 b n h).1)
  rw [hd] at g1
  cases g1
  rw [selected_unique hpub g4.pubSel]
  have := (l3 _ _ g3).2
  have := g4.pubFits
  rw [g4.publen] at this
  omega

theorem Net.certs_dead {γ : Type} (allocOk : Nat → Bool) (parse : Bytes → Bytes → Option γ) (fns : List Bytes) (n : Net.N) (h : Net.Dead n) :
    Net.Go (Net.certs allocOk parse fns) n fun r n => r = List.replicate fns.length none ∧ Net.Dead n := by
  induction fns generalizing n with
  | nil => exact Net.Go.pure ⟨rfl, h⟩
  | cons fn fns ih =>
    refine Net.Go.bind ((Net.getcert_dead allocOk parse fn n h).mono ?_)
    rintro _ n ⟨rfl, h⟩
    refine Net.Go.bind ((ih n h).mono ?_)
    rintro _ n ⟨rfl, h⟩
    exact Net.Go.pure ⟨rfl, h⟩

theorem Lookups.length {γ : Type} {cipher : Pem.Stream} {parse : Bytes → Bytes → Option γ} {lds : List LoadEnv} {fns : List Bytes} {k k' : Option Bytes}
    {rs : List (Option γ)} {as : List Act} (h : Lookups cipher parse lds fns k rs k' as) : fns.length = rs.length := by
  induction h with
  | nil => rfl
  | cons _ _ _ _ ih => simp [ih]

theorem certs_go {γ : Type} (p : P) (hp : Lawful p) (allocOk : Nat → Bool) (parse : Bytes → Bytes → Option γ) (ha : ∀ n, allocOk n = true)
    (rest : List LoadEnv) {lds : List LoadEnv} {fns : List Bytes} {k k' : Option Bytes} {rs : List (Option γ)} {as : List Act}
    (hl : Lookups p.cipher parse lds fns k rs k' as) (hm : ∀ l ∈ lds, l ∈ p.loads) :
    ∃ req ans : Bytes,
      (∀ o i n, Net.At o (ans ++ i) n → Net.Go (Net.certs allocOk parse fns) n fun r n => r = rs ∧ Net.At (o ++ req) i n) ∧
      (∀ certfn pem, certfn.length = 1024 → Holds p.cipher pem k → ∀ i o l s (Q : Pems → S → Prop), KAt (req ++ i) o l s →
        (∀ certfn' pem' s' l', certfn'.length = 1024 → Holds p.cipher pem' k' → l'.filter Act.isUse = as → KAt i (o ++ ans) (l ++ l') s' →
          Go (loadLoop p.cipher rest certfn' pem') s' Q) → Go (loadLoop p.cipher (lds ++ rest) certfn pem) s Q) ∧
      (∀ A n, Net.Held (ans ++ A) n → Net.Go (Net.certs allocOk parse fns) n fun r n =>
        (r = rs ∧ Net.Held A n) ∨ ∃ j, j ≤ rs.length ∧ r = rs.take j ++ List.replicate (rs.length - j) none ∧ Net.Dead n) := by
  induction hl with
  | nil =>
    refine ⟨[], [], fun o i n h => Net.Go.pure ⟨rfl, by simpa using h⟩, ?_, fun A n h => Net.Go.pure (.inl ⟨rfl, h⟩)⟩
    intro certfn pem hc hk i o l s Q h hQ
    exact hQ certfn pem s [] hc hk rfl (by simpa using h)
  | @cons ld lds fn fns k k1 k2 r rs a as hfn h0 hlk hrest ih =>
    obtain ⟨req2, ans2, hn2, hk2, hc2⟩ := ih (fun l h => hm l (.tail _ h))
    have one : ∃ req ans : Bytes,
        (∀ o i n, Net.At o (ans ++ i) n → Net.Go (Net.getcert allocOk parse fn) n fun r' n => r' = r ∧ Net.At (o ++ req) i n) ∧
        (∀ loads certfn pem, certfn.length = 1024 → ∃ acts, acts.filter Act.isUse = [a] ∧ Continues p.cipher ld loads certfn pem req ans acts k1) ∧
        Net.Cuts (Net.getcert allocOk parse fn) ans r none := by
      cases hlk with
      | @found nonce nc d pub sec g1 g2 g3 g4 =>
        have ok : ∀ n', ∃ nc', Pem.load p.cipher n' ld.key (ld.env (Path.Spec.undot (Path.Spec.collapse fn))) = .ok (some nc') := fun n' => by
          obtain ⟨r', e1, e2⟩ := load_nonce n' g1
          cases r' with
          | none => cases e2
          | some nc' => exact ⟨nc', e1⟩
        have key := fun loads certfn hc (pem : Pems) nc' e1 => c56_getcert p hp ld (hm _ (.head _)) loads certfn hc pem fn hfn h0 allocOk parse nc' e1 ha
        have same : ∀ {d' pub' sec'}, content (ld.env (Path.Spec.undot (Path.Spec.collapse fn))) = some d' →
            Pem.Selected (Pem.usable d') pub' (Pem.InCert (Pem.usable d')) → Pem.Selected (Pem.usable d') sec' (fun i => ¬ Pem.InCert (Pem.usable d') i) →
            d' = d ∧ pub' = pub ∧ sec' = sec := by
          intro d' pub' sec' f1 f2 f3
          rw [g2] at f1
          cases f1
          exact ⟨rfl, selected_unique f2 g3, selected_unique f3 g4⟩
        refine ⟨frame (fn ++ [0]), frame (Pem.text pub), ?_, ?_, ?_⟩
        · obtain ⟨d', pub', sec', f1, f2, f3, f4, _⟩ := key [] p.certfn hp.certfn ⟨⟨[], 0, [], 0⟩, [], none⟩ _ (ok none).choose_spec
          obtain ⟨rfl, rfl, rfl⟩ := same f1 f2 f3
          exact f4
        · intro loads certfn pem hc
          obtain ⟨d', pub', sec', f1, f2, f3, _, f5⟩ := key loads certfn hc pem _ (ok _).choose_spec
          obtain ⟨rfl, rfl, rfl⟩ := same f1 f2 f3
          exact ⟨_, rfl, f5⟩
        · have hlen := public_small p hp (hm _ (.head _)) g1 g2 g3
          exact Net.getcert_cuts allocOk parse fn _ (ha _) hlen
      | @missing nonce g1 g2 g3 =>
        have no : ∀ n', Pem.load p.cipher n' ld.key (ld.env (Path.Spec.undot (Path.Spec.collapse fn))) = .ok none := fun n' => by
          obtain ⟨r', e1, e2⟩ := load_nonce n' g1
          cases r' with
          | some _ => cases e2
          | none => exact e1
        have key := fun loads certfn hc (pem : Pems) => c56_getcert_failure p ld loads certfn hc pem fn hfn h0 allocOk parse (no _) ⟨g2, g3⟩
        exact ⟨_, _, (key [] p.certfn hp.certfn ⟨⟨[], 0, [], 0⟩, [], none⟩).1, fun loads certfn pem hc => ⟨_, rfl, (key loads certfn hc pem).2⟩,
          Net.getcert_error_cuts allocOk parse fn _ ⟨g2, g3⟩⟩
    obtain ⟨req1, ans1, hn1, hk1, hc1⟩ := one
    refine ⟨req1 ++ req2, ans1 ++ ans2, fun o i n h => ?_, ?_, fun A n h => ?_⟩
    · rw [List.append_assoc] at h
      refine Net.Go.bind ((hn1 _ _ _ h).mono ?_)
      rintro _ n ⟨rfl, h⟩
      refine Net.Go.bind ((hn2 _ _ _ h).mono ?_)
      rintro _ n ⟨rfl, h⟩
      exact Net.Go.pure ⟨rfl, by rwa [← List.append_assoc]⟩
    · intro certfn pem hc _ i o l s Q h hQ
      rw [List.append_assoc] at h
      obtain ⟨acts, e1, hcont⟩ := hk1 (lds ++ rest) certfn pem hc
      refine hcont _ _ _ _ Q h fun certfn' pem' s' hc' hk' h => ?_
      refine hk2 certfn' pem' hc' hk' _ _ _ _ Q h fun certfn'' pem'' s'' l' hc'' hk'' e2 h => ?_
      refine hQ certfn'' pem'' s'' (acts ++ l') hc'' hk'' ?_ (by simpa only [List.append_assoc] using h)
      rw [List.filter_append, e1, e2]
      rfl
    · rw [List.append_assoc] at h
      refine Net.Go.bind ((hc1.1 _ _ h).mono ?_)
      rintro _ n (⟨rfl, h⟩ | ⟨rfl, h⟩)
      · refine Net.Go.bind ((hc2 _ _ h).mono ?_)
        rintro _ n (⟨rfl, h⟩ | ⟨j, hj, rfl, h⟩)
        · exact Net.Go.pure (.inl ⟨rfl, h⟩)
        · exact Net.Go.pure (.inr ⟨j + 1, by simp; omega, by simp, h⟩)
      · refine Net.Go.bind ((Net.certs_dead allocOk parse fns n h).mono ?_)
        rintro _ n ⟨rfl, h⟩
        exact Net.Go.pure (.inr ⟨0, Nat.zero_le _, by simp [List.replicate_succ, hrest.length], h⟩)

/-! ### The whole connection -/

theorem connection_go {γ : Type} (p : P) (hp : Lawful p) (hj : p.nojail = true ∨ p.jail = true)
    (allocOk : Nat → Bool) (parse : Bytes → Bytes → Option γ) (ha : ∀ n, allocOk n = true)
    (c : Ec.Spec.Curve) (hc : c ∈ Ec.Spec.curves p.ec.x448.isSome) :
    ∃ x, Ec.Spec.Scalar c x ∧ ∀ (q : Conn) (lds rest : List LoadEnv) (certs : List (Option γ)) (held : Option Bytes) (acts : List Act)
      (sig : Bytes) (prf : Nat) (kind : Kind) (alive : List Bool),
      q.curve = c.id → p.loads = lds ++ rest → Lookups p.cipher parse lds q.names none certs held acts →
      (Ec.Spec.gen p.ec c x).2 = true →
      q.digest.length ≤ q.max → q.max ≤ 2048 → p.doSign (held.getD []) (UInt8.ofNat q.algo) q.digest = .ok sig → sig.length ≤ q.max →
      q.point.length = c.point → (Ec.Spec.mul p.ec c q.point x).2 = true →
      q.agreed.sessionId.length = 32 → q.agreed.clientRandom.length = 32 → q.agreed.serverRandom.length = 32 →
      q.agreed.version < 2 ^ 16 → q.agreed.suite < 2 ^ 16 → suiteOf q.agreed.suite = some (prf, kind) →
      let st := p.install q.agreed prf kind (Ec.Spec.secret c (Ec.Spec.mul p.ec c q.point x).1)
      Fits p emptyFails prf st q.caller → p.alive = List.replicate (atHand p emptyFails prf st q.caller).1.length true ++ alive →
      ∃ req ans : Bytes,
        (∀ o i n, Net.At o (ans ++ i) n → Net.Go (Net.connection allocOk parse q) n fun r n =>
          r = ⟨certs, some (Ec.Spec.gen p.ec c x).1, some sig, some (), (atHand p emptyFails prf st q.caller).1⟩ ∧ Net.At (o ++ req) i n) ∧
        (∀ i o l s, KAt (req ++ i) o l s → Leads (keyjail p) s (serve p prf alive (atHand p emptyFails prf st q.caller).2.2) fun s' =>
          ∃ l', l'.filter Act.isUse = acts ++ [.keygen c.id [.gen c.id x] true, .sign (held.getD []) (UInt8.ofNat q.algo) q.digest,
            .agree c.id [.mul c.id q.point x] q.agreed true] ++ (atHand p emptyFails prf st q.caller).2.1 ∧ KAt i (o ++ ans) (l ++ l') s') ∧
        (∀ A n, Net.Held (ans ++ A) n → Net.Go (Net.connection allocOk parse q) n fun r _ => ∃ j agreed,
          r = gotUntil j certs (Ec.Spec.gen p.ec c x).1 sig agreed fun j => atHandUntil p emptyFails prf j st q.caller) := by
  obtain ⟨r, x, b1, b2, b3, b4, b5, b6, b7, b8⟩ := Ec.c64_base p.ec hp.ec c hc p.pk p.sk hp.pk hp.sk
  refine ⟨x, b2, ?_⟩
  intro q lds rest certs held acts sig prf kind alive hcurve hloads hlook hgen hd hmax hs hsig hpt hmul hsid hcr hsr hver hsuite hprf
  intro st hf halive
  obtain ⟨hsz1, hsz2⟩ := curve_sizes (curves_mono hc)
  have hid : c.id < 256 := by
    have := curves_mono hc
    simp only [Ec.Spec.curves, if_true, List.mem_append, List.mem_cons, List.not_mem_nil, or_false] at this
    rcases this with (rfl | rfl | rfl | rfl) | rfl <;> decide
  have hr0 : r.ret = 0 := b6.mpr hgen
  obtain ⟨b9, b10⟩ := b8 hr0
  have same : ∀ p' : Bytes, p'.length = 133 → ∃ r', Ec.mul p.ec c.id p' r.sk = .ok r' ∧ r'.calls = [.mul c.id (p'.take c.point) x] ∧
      r'.p.length = 133 ∧ (r'.ret = 0 ↔ (Ec.Spec.mul p.ec c (p'.take c.point) x).2 = true) ∧ r'.plen = c.secret ∧
      r'.p.take c.secret = Ec.Spec.secret c (Ec.Spec.mul p.ec c (p'.take c.point) x).1 := by
    intro p' hp'
    obtain ⟨q1, q2, x', g1, g2, g3, g4, g5⟩ := Ec.c64_same_scalar p.ec hp.ec c hc p.pk p' p.sk hp.pk hp' hp.sk
    rw [b1] at g1
    cases g1
    rw [b3] at g4
    simp only [List.cons.injEq, Ec.Call.gen.injEq, true_and, and_true] at g4
    subst g4
    obtain ⟨q3, x', e1, e2, e3, e4, e5, e6, e7, e8⟩ := Ec.c64_mul p.ec hp.ec c hc p' r.sk hp' b5
    rw [g2] at e1
    cases e1
    rw [g5] at e3
    simp only [List.cons.injEq, Ec.Call.mul.injEq, true_and, and_true] at e3
    subst e3
    exact ⟨q2, g2, g5, e4, e5, e7, e8⟩
  have hready : Ready p c x r.p c.point r.sk := ⟨curves_mono hc, b4, rfl, fun p' hp' => by
    obtain ⟨r', e1, e2, e3, e4, e5, e6⟩ := same p' hp'
    exact ⟨r', e1, e2, e3, by omega⟩⟩
  have hp' : (q.point ++ r.p.drop q.point.length).length = 133 := by simp; omega
  obtain ⟨r', m1, m2, m3, m4, m5, m6⟩ := same _ hp'
  rw [← hpt, List.take_left] at m2
  rw [← hpt, List.take_left] at m4
  rw [← hpt, List.take_left] at m6
  obtain ⟨reqC, ansC, hnC, hkC, hcC⟩ := certs_go p hp allocOk parse ha rest hlook (fun l h => by rw [hloads]; exact List.mem_append_left _ h)
  obtain ⟨reqP, ansP, hnP, hkP, hcP⟩ := records_go p hp prf q.caller st hf alive
  have hA := mul_exchange p c x r.p r.sk q.point q.agreed.sessionId q.agreed.clientRandom q.agreed.serverRandom q.agreed.version q.agreed.suite
    hready hpt hsid hcr hsr hver hsuite r' prf kind m1 (by rw [m4.mpr hmul]; decide) hprf
  obtain ⟨reqA, hreqA⟩ : ∃ r, r = frame q.point ++ (frame q.agreed.sessionId ++ (frame (Net.raw 2 q.agreed.version) ++
    (frame (Net.raw 2 q.agreed.suite) ++ (frame q.agreed.clientRandom ++ frame q.agreed.serverRandom)))) := ⟨_, rfl⟩
  rw [← hreqA] at hA
  obtain ⟨hnA, hkA⟩ := hA
  rw [m5, m6] at hkA
  obtain ⟨hnM, _⟩ := mulgen_exchange p hp rest p.certfn hp.certfn ⟨⟨[], 0, [], 0⟩, [], p.nonce⟩ c.id hid hj r b1 (by omega) (by omega) (by omega)
  have hnS := sign_net q.algo q.max q.digest sig hmax hsig
  rw [b9, b10] at hnM
  refine ⟨reqC ++ (frame [] ++ frame [UInt8.ofNat c.id] ++ (frame [UInt8.ofNat q.algo] ++ (frame (Net.raw 8 q.max) ++ frame q.digest) ++ (reqA ++ reqP))),
    ansC ++ (frame (Ec.Spec.gen p.ec c x).1 ++ (frame sig ++ ([] ++ ansP))), fun o i n h => ?_, fun i o l s h => ?_, fun A n h => ?_⟩
  · simp only [List.append_assoc] at h
    unfold Net.connection
    rw [hcurve]
    refine Net.Go.bind ((hnC _ _ _ h).mono ?_)
    rintro _ n ⟨rfl, h⟩
    refine Net.Go.bind ((hnM _ _ _ h).mono ?_)
    rintro _ n ⟨rfl, h⟩
    refine Net.Go.bind ((hnS _ _ _ h).mono ?_)
    rintro _ n ⟨rfl, h⟩
    refine Net.Go.bind ((hnA _ _ _ h).mono ?_)
    rintro _ n ⟨rfl, h⟩
    refine Net.Go.bind ((hnP _ _ _ h).mono ?_)
    rintro _ n ⟨rfl, h⟩
    exact Net.Go.pure ⟨rfl, by simpa only [List.append_assoc] using h⟩
  · rw [List.append_assoc, List.append_assoc, List.append_assoc, List.append_assoc] at h
    unfold keyjail
    rw [hloads]
    refine Leads.bind (hkC p.certfn _ hp.certfn (fun _ => rfl) _ _ _ _ _ h fun certfn' pem' s' l1 hc' hk' e1 h => ?_)
    have hM := (mulgen_exchange p hp rest certfn' hc' pem' c.id hid hj r b1 (by omega) (by omega) (by omega)).2 _ _ _ _ h
    rw [b9, b10] at hM
    refine hM.unbind.mono fun pem'' s h => Leads.bind (h.unbind.mono fun _ s g => Leads.bind (g.unbind.mono fun k s f => ?_))
    obtain ⟨h', l2, l3, e2, e3, f⟩ := f
    cases h'
    dsimp only
    refine Leads.bind (((sign_exchange p hp pem' held hk' q.algo q.max q.digest sig hd hmax hs hsig).2 _ _ _ _ f).mono ?_)
    rintro _ s ⟨_, l4, l5, e4, e5, h⟩
    rw [List.append_assoc] at h
    refine Leads.bind ((hkA _ _ _ _ h).mono ?_)
    rintro _ s ⟨rfl, l6, l7, e6, e7, h⟩
    dsimp only
    rw [halive]
    refine (hkP _ _ _ _ h).trans ?_
    rintro s ⟨l8, e8, h⟩
    refine .inr ⟨s, rfl, l1 ++ l2 ++ .keygen c.id r.calls true :: l3 ++ l4 ++ .sign (held.getD []) (UInt8.ofNat q.algo) q.digest :: l5 ++ l6 ++
      .agree c.id [.mul c.id q.point x] q.agreed true :: l7 ++ l8, ?_, by simpa only [List.append_assoc, List.cons_append] using h⟩
    simp only [List.filter_append, List.filter_cons, Act.isUse, if_true, e1, e2, e3, e4, e5, e6, e7, e8, b3, List.nil_append, List.append_assoc, List.append_nil,
      List.cons_append]
  · simp only [List.append_assoc] at h
    unfold Net.connection
    rw [hcurve]
    refine Net.Go.bind ((hcC _ _ h).mono ?_)
    obtain ⟨len, hlen⟩ : ∃ len, certs.length = len := ⟨_, rfl⟩
    have hgl : (Ec.Spec.gen p.ec c x).1.length ≤ 133 := by rw [← b10, List.length_take]; omega
    intro rs' n hrs
    rcases hrs with ⟨rfl, h⟩ | ⟨j, hj, rfl, h⟩
    rotate_left
    · refine Net.Go.bind (((Net.mulgen_cuts c.id [] (by decide)).2 _ h).mono ?_)
      rintro _ n ⟨rfl, h⟩
      refine Net.Go.bind (((Net.dosign_cuts q.algo q.max q.digest [] hmax (Nat.zero_le _)).2 _ h).mono ?_)
      rintro _ n ⟨rfl, h⟩
      refine Net.Go.bind (((Net.mul_cuts ..).2 _ h).mono ?_)
      intro agreed n h
      refine Net.Go.bind ((Net.talk_dead _ n h).mono ?_)
      rintro _ n rfl
      refine Net.Go.pure ⟨j, agreed, ?_⟩
      unfold gotUntil
      rw [if_neg (by omega), if_neg (by omega), show j - (certs.length + 2) = 0 by omega]
      rfl
    refine Net.Go.bind (((Net.mulgen_cuts c.id _ hgl).1 _ _ h).mono ?_)
    rintro _ n (⟨rfl, h⟩ | ⟨rfl, h⟩)
    rotate_left
    · refine Net.Go.bind (((Net.dosign_cuts q.algo q.max q.digest [] hmax (Nat.zero_le _)).2 _ h).mono ?_)
      rintro _ n ⟨rfl, h⟩
      refine Net.Go.bind (((Net.mul_cuts ..).2 _ h).mono ?_)
      intro agreed n h
      refine Net.Go.bind ((Net.talk_dead _ n h).mono ?_)
      rintro _ n rfl
      exact Net.Go.pure ⟨len, agreed, by simp [gotUntil, hlen, show len - (len + 2) = 0 by omega, List.take_of_length_le (show rs'.length ≤ len by omega), atHandUntil]⟩
    refine Net.Go.bind (((Net.dosign_cuts q.algo q.max q.digest sig hmax hsig).1 _ _ h).mono ?_)
    intro s' n hs'
    rcases hs' with ⟨rfl, h⟩ | ⟨rfl, h⟩
    rotate_left
    · refine Net.Go.bind (((Net.mul_cuts ..).2 _ h).mono ?_)
      intro agreed n h
      refine Net.Go.bind ((Net.talk_dead _ n h).mono ?_)
      rintro _ n rfl
      exact Net.Go.pure ⟨len + 1, agreed, by simp [gotUntil, hlen, show len + 1 - (len + 2) = 0 by omega, show len - (len + 1) = 0 by omega, List.take_of_length_le (show rs'.length ≤ len + 1 by omega), atHandUntil]⟩
    refine Net.Go.bind (((Net.mul_cuts ..).1 _ _ h).mono ?_)
    intro agreed n h
    rcases h with ⟨rfl, h⟩ | h
    · refine Net.Go.bind ((hcP _ _ h).mono ?_)
      rintro _ n ⟨j, rfl⟩
      exact Net.Go.pure ⟨len + 2 + j, some (), by simp [gotUntil, hlen, show len < len + 2 + j by omega, show len + 1 < len + 2 + j by omega, show len + 2 + j - (len + 2) = j by omega, show len - (len + 2 + j) = 0 by omega, List.take_of_length_le (show rs'.length ≤ len + 2 + j by omega)]⟩
    · refine Net.Go.bind ((Net.talk_dead _ n h).mono ?_)
      rintro _ n rfl
      exact Net.Go.pure ⟨len + 2, agreed, by simp [gotUntil, hlen, show len - (len + 2) = 0 by omega, List.take_of_length_le (show rs'.length ≤ len + 2 by omega), atHandUntil]⟩

/-- C91: there is one secret number such that, for any certificates asked for, any
digest to be signed, any point of the peer and whatever the engine asks afterwards, the
network process gets from the key process exactly what it would get with files and keys
at hand: the chains in the files, the point made with that number, the signature made
with the secret part of the last file, and then records and verify data under the keys
derived from the secret shared with the peer. The key process uses files and secrets for
these questions, in this order, and for nothing else. This holds for every division of
the reads and writes on the pipes, and whatever follows on them. The answers are those
of `emptyFails`: see `c91_same_partial`. -/
theorem c91_connection {γ : Type} (p : P) (hp : Lawful p) (hj : p.nojail = true ∨ p.jail = true)
    (allocOk : Nat → Bool) (parse : Bytes → Bytes → Option γ) (ha : ∀ n, allocOk n = true)
    (c : Ec.Spec.Curve) (hc : c ∈ Ec.Spec.curves p.ec.x448.isSome) :
    ∃ x, Ec.Spec.Scalar c x ∧ ∀ (q : Conn) (lds rest : List LoadEnv) (certs : List (Option γ)) (held : Option Bytes) (acts : List Act)
      (sig : Bytes) (prf : Nat) (kind : Kind) (alive : List Bool),
      q.curve = c.id → p.loads = lds ++ rest → Lookups p.cipher parse lds q.names none certs held acts →
      (Ec.Spec.gen p.ec c x).2 = true →
      q.digest.length ≤ q.max → q.max ≤ 2048 → p.doSign (held.getD []) (UInt8.ofNat q.algo) q.digest = .ok sig → sig.length ≤ q.max →
      q.point.length = c.point → (Ec.Spec.mul p.ec c q.point x).2 = true →
      q.agreed.sessionId.length = 32 → q.agreed.clientRandom.length = 32 → q.agreed.serverRandom.length = 32 →
      q.agreed.version < 2 ^ 16 → q.agreed.suite < 2 ^ 16 → suiteOf q.agreed.suite = some (prf, kind) →
      let st := p.install q.agreed prf kind (Ec.Spec.secret c (Ec.Spec.mul p.ec c q.point x).1)
      Fits p emptyFails prf st q.caller → p.alive = List.replicate (atHand p emptyFails prf st q.caller).1.length true ++ alive →
      ∃ req ans : Bytes,
        (∀ o i n, Net.At o (ans ++ i) n → Net.Go (Net.connection allocOk parse q) n fun r n =>
          r = ⟨certs, some (Ec.Spec.gen p.ec c x).1, some sig, some (), (atHand p emptyFails prf st q.caller).1⟩ ∧ Net.At (o ++ req) i n) ∧
        (∀ i o l s, KAt (req ++ i) o l s → Leads (keyjail p) s (serve p prf alive (atHand p emptyFails prf st q.caller).2.2) fun s' =>
          ∃ l', l'.filter Act.isUse = acts ++ [.keygen c.id [.gen c.id x] true, .sign (held.getD []) (UInt8.ofNat q.algo) q.digest,
            .agree c.id [.mul c.id q.point x] q.agreed true] ++ (atHand p emptyFails prf st q.caller).2.1 ∧ KAt i (o ++ ans) (l ++ l') s') := by
  obtain ⟨x, hx, h⟩ := connection_go p hp hj allocOk parse ha c hc
  refine ⟨x, hx, fun q lds rest certs held acts sig prf kind alive h1 h2 h3 h4 h5 h6 h7 h8 h9 h10 h11 h12 h13 h14 h15 h16 h17 h18 => ?_⟩
  obtain ⟨req, ans, g1, g2, -⟩ := h q lds rest certs held acts sig prf kind alive h1 h2 h3 h4 h5 h6 h7 h8 h9 h10 h11 h12 h13 h14 h15 h16 h17 h18
  exact ⟨req, ans, g1, g2⟩

/-! ### A case that meets the hypotheses
The key process of `Key.toy`: one file, X25519, a signature of the digest itself, and
records with 16 bytes of overhead. The engine opens what it was given, and seals what it
has opened. -/

/-- The adaptive part: the verify data decides what is sealed last. -/
def toyCaller : Caller :=
  .prf b!"client finished" (List.replicate 32 1) [] fun y =>
  .dec 23 0x303 (List.replicate 20 7) fun r =>
  .enc 23 0x303 ((r.map (·.2)).getD []) fun _ =>
  .dec 23 0x303 [1, 2, 3] fun _ =>
  .enc 21 0x303 y fun _ => .done

def toyConn : Conn where
  names := [b!"cert.pem"]
  curve := 29
  algo := 4
  digest := [1, 2, 3]
  max := 64
  point := List.replicate 32 9
  agreed := ⟨List.replicate 32 1, 0x303, 0xC02F, List.replicate 32 2, List.replicate 32 3⟩
  caller := toyCaller

/-- Either side, run on some bytes from the other. -/
def toyKey (req : Bytes) : R Unit := keyjail (toy (List.replicate 5 true)) ⟨⟨req, List.replicate 100 (.data 4095)⟩, ⟨[], List.replicate 100 (.data 4095)⟩, []⟩
def toyNet (ans : Bytes) : Net.NR (Got Bytes) :=
  Net.connection (fun _ => true) (fun t _ => some t) toyConn ⟨⟨[], List.replicate 100 (.data 4095)⟩, ⟨ans, List.replicate 100 (.data 4095)⟩⟩
def R.s : R Unit → S
  | .ok _ s | .stop s | .blocked s | .ub s => s
def netOut : Net.NR (Got Bytes) → Bytes
  | .ok _ n | .fail n | .blocked n | .ub n => n.to.out
/-- The bytes that travel, after `k` turns of both sides. -/
def toyTurns : Nat → Bytes × Bytes
  | 0 => ([], [])
  | k + 1 => let ans := (toyKey (toyTurns k).1).s.out.out; (netOut (toyNet ans), ans)

/-- The network side's result and the key side's uses, in that run. -/
example : (match toyNet (toyTurns 3).2 with
    | .ok r _ => some r
    | _ => none) =
    some ⟨[some (Pem.text (Pem.usable Pem.sampleFile |>.take 3))], some (List.replicate 32 9), some [1, 2, 3], some (),
      [.bytes (List.replicate 12 5), .record (some (0, [7, 7, 7, 7])), .record (some (-5, [7, 7, 7, 7] ++ List.replicate 21 0)), .record none,
        .record (some (-5, List.replicate 12 5 ++ List.replicate 21 0))]⟩ := by
  decide +kernel

example : toyTurns 4 = toyTurns 3 ∧ (toyKey (toyTurns 3).1).s.inp.src = [] ∧
    ((toyKey (toyTurns 3).1).s.log.filter Act.isUse).drop 4 =
      [.prf (b!"client finished" ++ [0]) (List.replicate 32 1), .decrypt 23 0x303 (List.replicate 20 7), .encrypt 23 0x303 [7, 7, 7, 7], .decrypt 23 0x303 [1, 2, 3],
        .encrypt 21 0x303 (List.replicate 12 5)] := by
  decide +kernel

theorem toy_fits (see : View) (hsee : see = emptyFails ∨ see = plainly) : Fits (toy (List.replicate 5 true)) see 4 () toyCaller := by
  refine ⟨.inl rfl, by decide, ?_⟩
  refine ⟨by decide, by decide, by decide, (), some (0, [7, 7, 7, 7]), rfl, ?_, ?_⟩
  · rintro raw z h
    cases h
    decide
  rw [show see (some (0, [7, 7, 7, 7])) = some (0, [7, 7, 7, 7]) by rcases hsee with rfl | rfl <;> rfl]
  refine ⟨by decide, by decide, by decide, (), -5, _, rfl, by decide, ?_⟩
  refine ⟨by decide, by decide, by decide, (), none, rfl, nofun, ?_⟩
  exact ⟨by decide, by decide, by decide, (), -5, _, rfl, by decide, trivial⟩

/-- No record of that connection opens to nothing. -/
example : Solid (toy []) 4 () toyCaller := by
  intro st' y h
  cases h
  refine ⟨fun raw h => absurd h (by simp), fun st' y h => ?_⟩
  cases h
  intro st' y h
  cases h
  exact ⟨fun raw h => absurd h (by simp), fun st' y h => trivial⟩

/-- One that does: its ciphertext is just the tag. -/
example : (toy []).dec () 23 0x303 (List.replicate 16 7) = .ok ((), some (0, [])) := rfl

theorem toy_lookups : Lookups (toy (List.replicate 5 true)).cipher (fun t _ => some t) (toy (List.replicate 5 true)).loads toyConn.names none
    [some (Pem.text (Pem.partOf true (Pem.classify false (Pem.usable Pem.sampleFile))))]
    (some (Pem.text (Pem.partOf false (Pem.classify false (Pem.usable Pem.sampleFile)))))
    [.load b!"cert.pem" (some Pem.sampleFile)] := by
  have hl : ∃ nc, Pem.load (toy (List.replicate 5 true)).cipher none (List.replicate 32 7) (toyEnv b!"cert.pem") = .ok (some nc) := by
    have : (match Pem.load (toy (List.replicate 5 true)).cipher none (List.replicate 32 7) (toyEnv b!"cert.pem") with | .ok (some _) => true | _ => false) = true := by decide +kernel
    revert this
    cases Pem.load (toy (List.replicate 5 true)).cipher none (List.replicate 32 7) (toyEnv b!"cert.pem") with
    | ub => exact nofun
    | ok r => cases r with
      | none => exact nofun
      | some nc => exact fun _ => ⟨nc, rfl⟩
  obtain ⟨nc, hl⟩ := hl
  have hn : Path.Spec.undot (Path.Spec.collapse b!"cert.pem") = b!"cert.pem" := by decide +kernel
  refine .cons (by decide) (by decide) ?_ .nil
  have := @Lookup.found Bytes (toy (List.replicate 5 true)).cipher (fun t _ => some t) ⟨List.replicate 32 7, toyEnv, 2⟩ b!"cert.pem" none nc Pem.sampleFile
    _ _ (by rw [hn]; exact hl) (by decide +kernel) (Pem.classify_selected _).1 (Pem.classify_selected _).2
  rwa [hn] at this

/-- `c91_connection` applies to that connection. -/
example : ∃ req ans : Bytes, ∃ r,
    (∀ o i n, Net.At o (ans ++ i) n → Net.Go (Net.connection (fun _ => true) (fun t _ => some t) toyConn) n fun r' n => r' = r ∧ Net.At (o ++ req) i n) ∧
    r.sig = some [1, 2, 3] ∧ r.answers.length = 5 := by
  obtain ⟨x, hx, h⟩ := c91_connection (toy (List.replicate 5 true)) (toy_lawful _) (.inr rfl) (fun _ => true) (fun t _ => some t) (fun _ => rfl)
    Ec.Spec.x25519 (by decide)
  obtain ⟨req, ans, h1, _⟩ := h toyConn _ [] _ _ _ [1, 2, 3] 4 (.gcm 16) [] rfl (List.append_nil _).symm toy_lookups
    (by
      change decide ((x.take 32).length = 32) = true
      have e : x.length = 32 := hx.1
      rw [List.length_take, e]
      rfl) (by decide) (by decide) rfl
    (by decide) rfl rfl rfl rfl rfl (by decide) (by decide) (by decide) (toy_fits _ (.inl rfl)) rfl
  exact ⟨req, ans, _, h1, rfl, rfl⟩
end Key
