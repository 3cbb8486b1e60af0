import Verif.Key.Lemmas
/-
C54, C55: the key process.
-/
namespace Key
open Io Pipe Pipe.Spec Spec

theorem leNat_int (m : Bytes) : leNat m = int m := by
  induction m with
  | nil => rfl
  | cons b m ih => show b.toNat + 256 * leNat m = b.toNat + 256 * int m; rw [ih]

theorem nonul_collapse (s : Bytes) (h : NoNul s) : NoNul (Path.Spec.collapse s) := by
  fun_induction Path.Spec.collapse s with
  | case1 => exact h
  | case2 => exact h
  | case3 a b s hc ih => exact ih (fun x hx => h x (List.mem_cons_of_mem _ hx))
  | case4 a b s hc ih =>
    intro x hx
    rcases List.mem_cons.mp hx with rfl | hx
    · exact h _ (by simp)
    · exact ih (fun x hx => h x (List.mem_cons_of_mem _ hx)) x hx

theorem nonul_undot (s : Bytes) (h : NoNul s) : NoNul (Path.Spec.undot s) := by
  fun_induction Path.Spec.undot s with
  | case1 => exact h
  | case2 => exact h
  | case3 a b s hc ih =>
    intro x hx
    simp only [List.mem_cons] at hx
    rcases hx with rfl | rfl | hx
    · exact h _ (by simp)
    · decide
    · exact ih (fun x hx => h x (by simp [hx])) x hx
  | case4 a b s hc ih =>
    intro x hx
    rcases List.mem_cons.mp hx with rfl | hx
    · exact h _ (by simp)
    · exact ih (fun x hx => h x (List.mem_cons_of_mem _ hx)) x hx

theorem split_nul (s t : Bytes) : ∃ t', s ++ 0 :: t = cstr (s.takeWhile (· ≠ 0)) t' ∧ NoNul (s.takeWhile (· ≠ 0)) := by
  induction s with
  | nil => exact ⟨t, rfl, by intro b hb; cases hb⟩
  | cons b s ih =>
    obtain ⟨t', h1, h2⟩ := ih
    by_cases hb : b = 0
    · subst hb
      exact ⟨s ++ 0 :: t, by simp [cstr], by simp [NoNul]⟩
    · refine ⟨t', by simp [hb, cstr] at h1 ⊢; exact h1, ?_⟩
      intro x hx
      simp [hb] at hx
      rcases hx with rfl | hx
      · exact hb
      · exact h2 x (by simpa using hx)

/-- The name the process opens. -/
theorem cleanName_ok (buf x : Bytes) (hb : buf.length = 1024) (hx : x.length ≤ 1024) (hx0 : x ≠ []) :
    ∃ c, cleanName (over buf 0 x) x.length = .ok c ∧ c.length = 1024 ∧ cstrOf c = .ok (name x) := by
  have hpos : 0 < x.length := List.length_pos_iff.mpr hx0
  have e : x = x.dropLast ++ [x.getLast hx0] := (List.dropLast_concat_getLast hx0).symm
  have e1 : wr (over buf 0 x) (x.length - 1) 0 = .ok (x.dropLast ++ 0 :: buf.drop x.length) := by
    have : over buf 0 x = x.dropLast ++ x.getLast hx0 :: buf.drop x.length := by
      conv => lhs; unfold over; rw [e]
      simp
      congr 1; omega
    rw [this, show x.length - 1 = x.dropLast.length by simp]
    exact wr_append _ _ _ _
  obtain ⟨t, h1, h2⟩ := split_nul x.dropLast (buf.drop x.length)
  obtain ⟨junk, h3, h4⟩ := Path.c11_exact (x.dropLast.takeWhile (· ≠ 0)) t h2
  unfold cleanName
  rw [e1, Out.ok_bind, h1, h4]
  refine ⟨_, rfl, ?_, cstrOf_cstr _ _ (nonul_undot _ (nonul_collapse _ h2))⟩
  have l1 := congrArg List.length h1
  have l2 := Path.c11_length (x.dropLast.takeWhile (· ≠ 0))
  simp only [cstr, List.length_append, List.length_cons, List.length_dropLast, List.length_drop] at l1 ⊢
  omega

/-- What a successful load leaves. -/
theorem load_inv {cipher : Pem.Stream} {nonce : Option Bytes} {key : Bytes} {e : Pem.Env} {nc : Option Bytes × Pem.Ctx}
    (h : Pem.load cipher nonce key e = .ok (some nc)) (hl : e.line0.length = 65)
    (hd : ∀ n d, e.data n = some d → d.length = n)
    (hr : ∀ b n, e.stat = some (b, n) → n + 1 ≤ e.r1.length ∧ n + 1 ≤ e.r2.length) :
    ∃ d c, content e = some d ∧ nc = Pem.encrypt cipher nonce e.nonceRnd key c ∧ (∃ b, e.stat = some (b, d.length)) ∧
      Pem.SplitTo d e.r1 e.r2 c (Pem.partOf true (Pem.classify false (Pem.usable d))) (Pem.partOf false (Pem.classify false (Pem.usable d))) := by
  by_cases ho : e.opened = false
  · unfold Pem.load at h; rw [if_pos ho] at h; cases h
  rcases hst : e.stat with _ | ⟨reg, n⟩
  · unfold Pem.load at h; rw [if_neg ho, hst] at h; cases h
  by_cases hreg : reg = false
  · unfold Pem.load at h; rw [if_neg ho, hst] at h; simp only [] at h; rw [if_pos hreg] at h; cases h
  by_cases ha : e.alloc1 = false
  · unfold Pem.load at h; rw [if_neg ho, hst] at h; simp only [] at h; rw [if_neg hreg, if_pos ha] at h; cases h
  by_cases hb : e.alloc2 = false
  · unfold Pem.load at h; rw [if_neg ho, hst] at h; simp only [] at h; rw [if_neg hreg, if_neg ha, if_pos hb] at h; cases h
  rcases hda : e.data n with _ | d
  · unfold Pem.load at h; rw [if_neg ho, hst] at h; simp only [] at h; rw [if_neg hreg, if_neg ha, if_neg hb, hda] at h; cases h
  have := hd n d hda
  subst this
  have hreg' : reg = true := by simpa using hreg
  subst hreg'
  obtain ⟨c, _, h2, h3⟩ := Pem.load_core cipher nonce key e d
    ⟨by simpa using ho, hst, by simpa using ha, by simpa using hb, hda, hl, (hr _ _ hst).1, (hr _ _ hst).2⟩
  rw [h] at h3
  cases h3
  exact ⟨d, c, by simp [content, hst, hda], rfl, ⟨true, rfl⟩, h2⟩

/-- The private part in memory is what the protocol says, however the nonce is
drawn. -/
def Holds (cipher : Pem.Stream) (pem : Pems) (k : Option Bytes) : Prop :=
  ∀ rnd, Ec.readN (Pem.encrypt cipher pem.nonce rnd pem.key pem.ctx).2.sec (Pem.encrypt cipher pem.nonce rnd pem.key pem.ctx).2.seclen = .ok (k.getD [])

theorem loadLoop_tr {p : P} (hp : Lawful p) (src out : Bytes) (loads : List LoadEnv) (hloads : ∀ l ∈ loads, l ∈ p.loads)
    (certfn : Bytes) (hc : certfn.length = 1024) (pem : Pems) (k : Option Bytes) (hk : Holds p.cipher pem k) :
    Tr p src out (.names k) (loadLoop p.cipher loads certfn pem) fun pem q => ∃ k, q = .ended k ∧ Holds p.cipher pem k := by
  induction loads generalizing certfn pem k with
  | nil =>
    unfold loadLoop
    refine Tr.bind (Tr.readmax (Q := fun a q => (a.2 = 0 → q = .ended k) ∧ a.1.length = 1024) (by omega) ?_) ?_
    · intro x hx
      by_cases h0 : x = []
      · subst h0
        exact ⟨_, .ended, fun _ => rfl, by simp [over]; exact hc⟩
      · exact ⟨_, .name h0 hx, fun h => absurd (List.length_eq_zero_iff.mp h) h0, by rw [over_length _ _ _ (by omega), hc]⟩
    · rintro ⟨c, n⟩ q ⟨h1, h2⟩
      simp only []
      by_cases hn : n = 0
      · rw [if_pos hn]
        have := h1 hn
        subst this
        exact Tr.pure ⟨k, rfl, hk⟩
      · rw [if_neg hn]
        exact Tr.blocked
  | cons l loads ih =>
    unfold loadLoop
    refine Tr.bind (Tr.readmax (Q := fun a q => (a.2 = 0 → q = .ended k) ∧
      (a.2 ≠ 0 → ∃ x, q = .named x ∧ a.1 = over certfn 0 x ∧ a.2 = x.length ∧ x.length ≤ 1024)) (by omega) ?_) ?_
    · intro x hx
      by_cases h0 : x = []
      · subst h0
        exact ⟨_, .ended, fun _ => rfl, fun h => absurd rfl h⟩
      · exact ⟨_, .name h0 hx, fun h => absurd (List.length_eq_zero_iff.mp h) h0, fun _ => ⟨x, rfl, rfl, rfl, hx⟩⟩
    · rintro ⟨c, n⟩ q ⟨h1, h2⟩
      simp only [] at h1 h2 ⊢
      by_cases hn : n = 0
      · rw [if_pos hn]
        have := h1 hn
        subst this
        exact Tr.pure ⟨k, rfl, hk⟩
      rw [if_neg hn]
      obtain ⟨x, rfl, rfl, rfl, hx⟩ := h2 hn
      obtain ⟨c, e1, e2, e3⟩ := cleanName_ok certfn x hc hx (by intro h; rw [h] at hn; exact hn rfl)
      refine Tr.bind (Tr.lift (Q := fun a q => a = c ∧ q = .named x) ⟨c, e1, rfl, rfl⟩) ?_
      rintro _ _ ⟨rfl, rfl⟩
      refine Tr.bind (Tr.lift (Q := fun a q => a = name x ∧ q = .named x) ⟨_, e3, rfl, rfl⟩) ?_
      rintro _ _ ⟨rfl, rfl⟩
      obtain ⟨l1, l2, l3⟩ := hp.loads l (hloads l (by simp)) (name x)
      obtain ⟨r, hr⟩ := Pem.c29_load_safe p.cipher pem.nonce l.key (l.env (name x)) l1 l2 (fun b n h => (l3 b n h).1)
      refine Tr.bind (Tr.lift (Q := fun a q => a = r ∧ q = .named x) ⟨_, hr, rfl, rfl⟩) ?_
      rintro r' _ ⟨h', rfl⟩
      subst h'
      rcases r' with _ | ⟨nonce, ctx⟩
      · refine Tr.bind (Tr.act (Q := fun _ q => q = .loaded none) .noload rfl (by simp) (by simp) (by simp)) ?_
        rintro _ _ rfl
        refine Tr.bind (Tr.sendErrno (Q := fun _ q => q = .names none) .nopub rfl) ?_
        rintro _ _ rfl
        refine ih (fun l hl => hloads l (by simp [hl])) _ e2 _ none ?_
        intro rnd
        rfl
      · obtain ⟨d, c0, g1, g2, ⟨b, g3⟩, g4⟩ := load_inv hr l1 l2 (fun b n h => (l3 b n h).1)
        have hpub : Ec.readN ctx.pub ctx.publen = .ok (Pem.text (Pem.partOf true (Pem.classify false (Pem.usable d)))) := by
          have : ctx.pub = c0.pub ∧ ctx.publen = c0.publen := by
            unfold Pem.encrypt at g2; simp only [Prod.mk.injEq] at g2; rw [g2.2]; exact ⟨rfl, rfl⟩
          rw [this.1, this.2]
          unfold Ec.readN
          rw [if_pos (by rw [g4.pubBuf]; exact g4.pubFits), g4.pub, g4.publen, List.take_left]
        simp only [g1]
        refine Tr.bind (Tr.act (Q := fun _ q => q = .loaded (some _)) (.load g4.pubSel g4.secSel) rfl (by simp) (by simp) (by simp)) ?_
        rintro _ _ rfl
        refine Tr.bind (Tr.lift (Q := fun a q => a = _ ∧ q = .loaded (some _)) ⟨_, hpub, rfl, rfl⟩) ?_
        rintro _ _ ⟨rfl, rfl⟩
        refine Tr.bind (Tr.send (Q := fun _ q => q = .names (some _)) ?_ .pub rfl) ?_
        · have := (l3 _ _ g3).2
          have := g4.pubFits
          rw [g4.publen] at this
          omega
        rintro _ _ rfl
        refine ih (fun l hl => hloads l (by simp [hl])) _ e2 _ _ ?_
        intro rnd
        unfold Pem.encrypt at g2 ⊢
        simp only [Prod.mk.injEq] at g2
        obtain ⟨rfl, rfl⟩ := g2
        simp only [Option.getD_some]
        rw [Pem.xorRun_twice]
        unfold Ec.readN
        rw [if_pos (by rw [g4.secBuf]; exact g4.secFits), g4.sec, g4.seclen, List.take_left]

theorem enterJail_tr {p : P} (src out : Bytes) (k : Option Bytes) :
    Tr p src out (.ended k) (enterJail p.nojail p.jail) fun _ q =>
      q = .jailed k ∧ p.nojail = false ∨ q = .ended k ∧ p.nojail = true := by
  unfold enterJail
  by_cases h : p.nojail = true
  · rw [if_pos h]; exact Tr.pure (.inr ⟨rfl, h⟩)
  · rw [if_neg h]
    split
    · exact Tr.act (.jail (by simpa using h)) (.inl ⟨rfl, by simpa using h⟩) (by simp) (by simp) (by simp)
    · exact Tr.stop

theorem len1 {x : Bytes} (h : x.length = 1) : ∃ b, x = [b] := by
  cases x with
  | nil => cases h
  | cons b x => cases x with
    | nil => exact ⟨b, rfl⟩
    | cons _ _ => simp at h

theorem readN_ok (m : Bytes) (n : Nat) (h : n ≤ m.length) : Ec.readN m n = .ok (m.take n) := by
  unfold Ec.readN; rw [if_pos h]

/-- What later steps need of a generated key. -/
structure Ready (p : P) (c : Ec.Spec.Curve) (x pk : Bytes) (pklen : Nat) (sk : Bytes) : Prop where
  mem : c ∈ Ec.Spec.curves true
  pk : pk.length = 133
  pklen : pklen = c.point
  mul : ∀ p' : Bytes, p'.length = 133 → ∃ r, Ec.mul p.ec c.id p' sk = .ok r ∧ r.calls = [.mul c.id (p'.take c.point) x] ∧
    r.p.length = 133 ∧ r.plen ≤ 133

theorem curves_mono {b : Bool} {c : Ec.Spec.Curve} (h : c ∈ Ec.Spec.curves b) : c ∈ Ec.Spec.curves true := by
  cases b
  · simp only [Ec.Spec.curves, Bool.false_eq_true, if_false, if_true, List.append_nil] at h ⊢
    exact List.mem_append_left _ h
  · exact h

theorem curve_sizes {c : Ec.Spec.Curve} (h : c ∈ Ec.Spec.curves true) : c.point ≤ 133 ∧ c.secret ≤ 133 := by
  simp only [Ec.Spec.curves, if_true, List.mem_append, List.mem_cons, List.not_mem_nil, or_false] at h
  rcases h with (rfl | rfl | rfl | rfl) | rfl <;> exact ⟨by decide, by decide⟩

theorem keygen_tr {p : P} (hp : Lawful p) (src out : Bytes) (k : Option Bytes) (ph : Phase)
    (hph : ph = .jailed k ∧ p.nojail = false ∨ ph = .ended k ∧ p.nojail = true) :
    Tr p src out ph (keygen p) fun a q => ∃ c x, q = .point k c x ∧ a.1 = c.id ∧ Ready p c x a.2.1 a.2.2.1 a.2.2.2 := by
  unfold keygen
  refine Tr.bind (Tr.readfix (Q := fun a q => ∃ b, a = [b] ∧ q = .curve k b.toNat) (by rfl) ?_) ?_
  · intro x hx
    obtain ⟨b, rfl⟩ := len1 hx
    rcases hph with ⟨rfl, h⟩ | ⟨rfl, h⟩
    · exact ⟨_, .curve, b, rfl, rfl⟩
    · exact ⟨_, .curveUnjailed h, b, rfl, rfl⟩
  rintro _ _ ⟨b, rfl, rfl⟩
  have hb : leNat [b] = b.toNat := by simp [leNat]
  simp only [hb]
  by_cases hc : ∀ c ∈ Ec.Spec.curves p.ec.x448.isSome, c.id ≠ b.toNat
  · refine Tr.bind (Tr.lift (Q := fun a q => a = _ ∧ q = _) ⟨_, (Ec.c64_unknown p.ec b.toNat hc p.pk p.sk).1, rfl, rfl⟩) ?_
    rintro _ _ ⟨rfl, rfl⟩
    refine Tr.bind (Tr.act (Q := fun _ q => q = .refused) (by simpa using Step.refuse) rfl (by simp) (by simp) (by simp)) ?_
    rintro _ _ rfl
    simp only [if_true]
    exact Tr.stop
  · have : ∃ c ∈ Ec.Spec.curves p.ec.x448.isSome, c.id = b.toNat := by
      refine Classical.byContradiction fun h => hc fun c h1 h2 => h ⟨c, h1, h2⟩
    obtain ⟨c, hm, hcb⟩ := this
    rw [← hcb]
    obtain ⟨r, x, h1, h2, h3, h4, h5, _, h7, h8⟩ := Ec.c64_base p.ec hp.ec c hm p.pk p.sk hp.pk hp.sk
    refine Tr.bind (Tr.lift (Q := fun a q => a = r ∧ q = _) ⟨_, h1, rfl, rfl⟩) ?_
    rintro r' _ ⟨h', rfl⟩
    subst h'
    rw [h3]
    by_cases hr : r'.ret = -1
    · refine Tr.bind (Tr.act (Q := fun _ _ => True) (by simp only [hr]; exact .keygenFails) trivial (by simp) (by simp) (by simp)) ?_
      intro _ _ _
      simp only [hr, if_true]; exact Tr.stop
    · refine Tr.bind (Tr.act (Q := fun _ q => q = .keyed k c x) (by simp only [ne_eq, hr, not_false_eq_true, decide_true]; exact .keygen (curves_mono hm) h2) rfl (by simp) (by simp) (by simp)) ?_
      rintro _ _ rfl
      simp only [hr, if_false]
      have hr0 : r'.ret = 0 := h7.resolve_right hr
      obtain ⟨h9, _⟩ := h8 hr0
      have hs := curve_sizes (curves_mono hm)
      refine Tr.bind (Tr.lift (Q := fun a q => a = r'.p.take c.point ∧ q = _) ⟨_, by rw [h9]; exact readN_ok _ _ (by omega), rfl, rfl⟩) ?_
      rintro _ _ ⟨rfl, rfl⟩
      refine Tr.bind (Tr.send (Q := fun _ q => q = .point k c x) (by simp; omega) (.point (by simp; omega)) rfl) ?_
      rintro _ _ rfl
      refine Tr.pure ⟨c, x, rfl, rfl, curves_mono hm, h4, h9, ?_⟩
      intro p' hp'
      obtain ⟨q, q', x', g1, g2, g3, g4, g5⟩ := Ec.c64_same_scalar p.ec hp.ec c hm p.pk p' p.sk hp.pk hp' hp.sk
      rw [h1] at g1
      cases g1
      rw [h3] at g4
      simp at g4
      subst g4
      obtain ⟨q'', _, e1, _, _, e2, _, _, e3, _⟩ := Ec.c64_mul p.ec hp.ec c hm p' r'.sk hp' h5
      rw [g2] at e1
      cases e1
      exact ⟨q', g2, g5, e2, by omega⟩

theorem over_take (buf : Bytes) (x : Bytes) : (over buf 0 x).take x.length = x := by
  simp [over]

/-- `Tr` right after action `a`. -/
def TrA (p : P) (src out : Bytes) (a : Act) (ph : Phase) {α : Type} (m : K α) (Q : α → Phase → Prop) : Prop :=
  ∀ s, (∃ l, s.log = l ++ [a]) → At p.nojail src out s ph → Res p src out Q (m s)

theorem Tr.toA {p : P} {src out : Bytes} {a : Act} {ph : Phase} {α : Type} {m : K α} {Q : α → Phase → Prop}
    (h : Tr p src out ph m Q) : TrA p src out a ph m Q := fun s _ hs => h s hs

theorem TrA.lift {p : P} {src out : Bytes} {ph : Phase} {α β : Type} {a : Act} {x : Out α} {f : α → K β}
    {Q : β → Phase → Prop} (hQ : ∀ b, x = .ok b → TrA p src out a ph (f b) Q) (hb : x = .ub → ∀ l, Bad p (l ++ [a])) :
    TrA p src out a ph (Key.lift x >>= f) Q := by
  intro s hl hs
  cases x with
  | ok b => exact hQ b rfl s hl hs
  | ub =>
    obtain ⟨l, hl⟩ := hl
    exact ⟨⟨ph, hs.near⟩, by rw [hl]; exact hb rfl l⟩

theorem Tr.actA {p : P} {src out : Bytes} {ph : Phase} {β : Type} {a : Act} {q : Phase} {f : K β}
    {Q : β → Phase → Prop} (h : Step p.nojail ph a q) (h1 : ∀ m, a ≠ .got m) (h2 : ∀ m, a ≠ .sent m) (h3 : ∀ e, a ≠ .errno e)
    (hQ : TrA p src out a q f Q) : Tr p src out ph (Key.act a >>= fun _ => f) Q := by
  intro s hs
  obtain ⟨q', g1, rfl⟩ := Tr.act (Q := fun _ q' => q' = q) h rfl h1 h2 h3 s hs
  exact hQ _ ⟨s.log, rfl⟩ g1

theorem signOnce_tr {p : P} (hp : Lawful p) (src out : Bytes) (k : Option Bytes) (c : Ec.Spec.Curve) (x : Bytes) (pem : Pems)
    (hk : Holds p.cipher pem k) :
    Tr p src out (.point k c x) (signOnce p pem) fun _ q => q = .params c x [] := by
  unfold signOnce
  refine Tr.bind (Tr.readfix (Q := fun a q => ∃ b, a = [b] ∧ q = .hash k c x b) (by rfl) ?_) ?_
  · intro y hy
    obtain ⟨b, rfl⟩ := len1 hy
    exact ⟨_, .hash, b, rfl, rfl⟩
  rintro _ _ ⟨h, rfl, rfl⟩
  refine Tr.bind (Tr.readfix (Q := fun a q => q = .size k c x h (leNat a)) (by rfl) ?_) ?_
  · intro y hy
    exact ⟨_, .size hy, by rw [leNat_int]⟩
  rintro l _ rfl
  by_cases hl : leNat l > 2048
  · rw [if_pos hl]; exact Tr.stop
  rw [if_neg hl]
  refine Tr.bind (Tr.readmax (Q := fun a q => ∃ d, a = (over p.data 0 d, d.length) ∧ d.length ≤ 2048 ∧ q = .digest k c x h d)
    (by rw [hp.data]; omega) ?_) ?_
  · intro d hd
    exact ⟨_, .digest hd (by omega), d, rfl, by omega, rfl⟩
  rintro _ _ ⟨d, rfl, hd, rfl⟩
  have hlen : (over p.data 0 d).length = 2048 := by rw [over_length _ _ _ (by rw [hp.data]; omega), hp.data]
  simp only []
  refine Tr.bind (Tr.lift (Q := fun a q => a = k.getD [] ∧ q = .digest k c x h d) ⟨_, hk _, rfl, rfl⟩) ?_
  rintro _ _ ⟨rfl, rfl⟩
  refine Tr.bind (Tr.lift (Q := fun a q => a = d ∧ q = .digest k c x h d) ⟨_, readN_ok _ _ (by omega), over_take _ _, rfl⟩) ?_
  rintro _ _ ⟨rfl, rfl⟩
  refine Tr.bind (Tr.lift (Q := fun a q => a = h ∧ q = .digest k c x h _) ⟨_, rfl, rfl, rfl⟩) ?_
  rintro _ _ ⟨rfl, rfl⟩
  refine Tr.actA .sign (by simp) (by simp) (by simp) (TrA.lift ?_ (fun hu l => ⟨l, _, rfl, hu⟩))
  intro sig hsig
  refine Tr.toA ?_
  have hs := hp.sign _ _ _ _ hsig
  refine Tr.bind (Tr.lift (Q := fun a q => a.length = 2048 ∧ q = .signed c x) ⟨_, copyN_over _ _ _ (by omega), over_length _ _ _ (by omega) |>.trans hlen, rfl⟩) ?_
  rintro data _ ⟨hdl, rfl⟩
  refine Tr.bind (Tr.lift (Q := fun a q => a.length ≤ 2048 ∧ q = .signed c x) ⟨_, readN_ok _ _ (by omega), by simp; omega, rfl⟩) ?_
  rintro y _ ⟨hy, rfl⟩
  exact Tr.send (by omega) (.signed hy) rfl

theorem paramStep {p : P} {src out : Bytes} {c : Ec.Spec.Curve} {x : Bytes} {ms : List Bytes} {buf : Bytes} {n : Nat}
    (hb : buf.length = n) (hn : n = paramLen c.point ms.length) (h6 : ms.length < 6) :
    Tr p src out (.params c x ms) (readallTo buf n) fun a q => a.length = n ∧ q = .params c x (ms ++ [a]) :=
  Tr.readfix hb fun m hm => ⟨_, .param h6 (by omega), hm, rfl⟩

theorem suiteOf_mem {s prf : Nat} {kind : Kind} (h : suiteOf s = some (prf, kind)) : (s, prf, kind) ∈ suites := by
  unfold suiteOf at h
  repeat' split at h
  all_goals first
    | cases h; done
    | (rename_i hs; cases h; rcases hs with rfl | rfl <;> simp [suites, sha1, sha256, sha384])

theorem cstrOf_ub {m : Bytes} (h : cstrOf m = .ub) : 0 ∉ m := by
  induction m with
  | nil => simp
  | cons b m ih =>
    unfold cstrOf at h
    split at h
    · cases h
    · rename_i hb
      cases hm : cstrOf m with
      | ok x => rw [hm] at h; cases h
      | ub =>
        have := ih hm
        simp [this]
        exact fun e => hb e.symm

theorem agreeOnce_tr {p : P} (src out : Bytes) (c : Ec.Spec.Curve) (x pk : Bytes) (pklen : Nat) (sk : Bytes)
    (hr : Ready p c x pk pklen sk) :
    Tr p src out (.params c x []) (agreeOnce p c.id pk pklen sk) fun _ q => q = .serving := by
  unfold agreeOnce
  obtain ⟨h1, h2⟩ := curve_sizes hr.mem
  refine Tr.bind (Tr.readall (Q := fun a q => ∃ y, y.length = c.point ∧ a = over pk 0 y ∧ q = .params c x [y]) ?_ ?_) ?_
  · rw [hr.pk, hr.pklen]; exact h1
  · intro y hy
    rw [hr.pklen] at hy
    exact ⟨_, .param (by simp) hy, y, hy, rfl, rfl⟩
  rintro _ _ ⟨y, hy, rfl, rfl⟩
  refine Tr.bind (paramStep (by rfl) (by rfl) (by simp)) ?_
  rintro sid _ ⟨_, rfl⟩
  refine Tr.bind (paramStep (by rfl) (by rfl) (by simp)) ?_
  rintro ver _ ⟨_, rfl⟩
  refine Tr.bind (paramStep (by rfl) (by rfl) (by simp)) ?_
  rintro suite _ ⟨_, rfl⟩
  refine Tr.bind (paramStep (by rfl) (by rfl) (by simp)) ?_
  rintro cr _ ⟨_, rfl⟩
  refine Tr.bind (paramStep (by rfl) (by rfl) (by simp)) ?_
  rintro sr _ ⟨_, rfl⟩
  have hl : (over pk 0 y).length = 133 := by rw [over_length _ _ _ (by rw [hr.pk]; omega), hr.pk]
  obtain ⟨r, g1, g2, g3, g4⟩ := hr.mul (over pk 0 y) hl
  refine Tr.bind (Tr.lift (Q := fun a q => a = r ∧ q = _) ⟨_, g1, rfl, rfl⟩) ?_
  rintro r' _ ⟨h', rfl⟩
  subst h'
  have g2' : r'.calls = [.mul c.id y x] := by
    rw [g2]; congr; rw [← hy]; exact over_take _ _
  simp only [g2', leNat_int]
  by_cases hr : r'.ret = -1
  · refine Tr.bind (Tr.act (Q := fun _ _ => True) (by simp only [hr]; exact .agreeFails) trivial (by simp) (by simp) (by simp)) ?_
    intro _ _ _
    simp only [hr, if_true]; exact Tr.stop
  refine Tr.bind (Tr.act (Q := fun _ q => q = .agreed (int suite))
    (by simp only [ne_eq, hr, not_false_eq_true, decide_true]; exact .agree) rfl (by simp) (by simp) (by simp)) ?_
  rintro _ _ rfl
  simp only [hr, if_false]
  split
  · exact Tr.stop
  · rename_i prf kind hsuite
    refine Tr.bind (Tr.lift (Q := fun _ q => q = .agreed (int suite)) ⟨_, readN_ok _ _ (by omega), rfl⟩) ?_
    rintro _ _ rfl
    refine Tr.bind (Tr.act (Q := fun _ q => q = .serving) (.install (suiteOf_mem hsuite)) rfl (by simp) (by simp) (by simp)) ?_
    rintro _ _ rfl
    exact Tr.pure rfl

theorem offByte_schar (raw : Int) (h1 : -64 ≤ raw) (h2 : raw ≤ 64) : schar (offByte raw) = raw := by
  unfold schar offByte
  rw [UInt8.toNat_ofNat']
  split <;> omega

theorem place_ok {raw : Int} {x : Bytes} {u : Unit} (h : place raw x = .ok u) : -64 ≤ raw ∧ raw + x.length ≤ 16709 := by
  unfold place recMax at h
  split at h
  · omega
  · cases h

theorem place_ub {raw : Int} {x : Bytes} (h : place raw x = .ub) : ¬ (-64 ≤ raw ∧ raw + x.length ≤ 16709) := by
  unfold place recMax at h
  split at h
  · cases h
  · omega

theorem servePrf_tr {p : P} (hp : Lawful p) (src out : Bytes) (st : p.σ) (i : Nat) :
    Tr p src out (.prf []) (servePrf p st i) fun _ q => q = .serving := by
  unfold servePrf
  refine Tr.bind (Tr.readfix (Q := fun a q => q = .prf [a]) (by rfl) fun m hm => ⟨_, .label hm, rfl⟩) ?_
  rintro label _ rfl
  refine Tr.bind (Tr.readfix (Q := fun a q => q = .prf [label, a]) (by rfl) fun m hm => ⟨_, .seedLen hm, rfl⟩) ?_
  rintro l _ rfl
  by_cases hl : leNat l > 48
  · rw [if_pos hl]; exact Tr.stop
  rw [if_neg hl]
  refine Tr.bind (Tr.readmax (Q := fun a q => ∃ m, m.length ≤ 48 ∧ a = (over (List.replicate 48 0) 0 m, m.length) ∧ q = .prf [label, l, m])
    (by simp; omega) fun m hm => ⟨_, .seed (by rw [← leNat_int]; exact hm) (by rw [← leNat_int]; omega), m, by omega, rfl, rfl⟩) ?_
  rintro _ _ ⟨m, hm, rfl, rfl⟩
  simp only []
  refine Tr.bind (Tr.lift (Q := fun a q => a = m ∧ q = .prf [label, l, m]) ⟨_, readN_ok _ _ ?_, over_take _ _, rfl⟩) ?_
  · rw [over_length _ _ _ (by simp; omega)]; simpa using hm
  rintro seed _ ⟨h', rfl⟩
  subst h'
  refine Tr.actA .prf (by simp) (by simp) (by simp) (TrA.lift ?_ (fun hu l => ⟨l, _, rfl, cstrOf_ub hu⟩))
  intro lb _
  refine Tr.toA ?_
  have hlen := hp.prf st i 12 lb seed
  refine Tr.bind (Tr.send (Q := fun _ q => q = .serving) (by omega) (.prfSent hlen) rfl) ?_
  rintro _ _ rfl
  exact Tr.pure rfl

/-- The three fields of a record request. -/
theorem readRecord_tr {p : P} (src out : Bytes) (F : List Bytes → Phase)
    (h1 : ∀ m : Bytes, m.length = 4 → Step p.nojail (F []) (.got m) (F [m]))
    (h2 : ∀ a m : Bytes, m.length = 4 → Step p.nojail (F [a]) (.got m) (F [a, m]))
    (h3 : ∀ a b m : Bytes, m.length ≤ 16709 → Step p.nojail (F [a, b]) (.got m) (F [a, b, m])) :
    Tr p src out (F []) readRecord fun r q => ∃ a b m, r = (int a, int b, m) ∧ q = F [a, b, m] := by
  unfold readRecord
  refine Tr.bind (Tr.readfix (Q := fun a q => q = F [a]) (by rfl) fun m hm => ⟨_, h1 m hm, rfl⟩) ?_
  rintro a _ rfl
  refine Tr.bind (Tr.readfix (Q := fun b q => q = F [a, b]) (by rfl) fun m hm => ⟨_, h2 a m hm, rfl⟩) ?_
  rintro b _ rfl
  refine Tr.bind (Tr.readmax (Q := fun r q => ∃ m, m.length ≤ 16709 ∧ r = (over (List.replicate (recMax + 64) 0) 64 m, m.length) ∧ q = F [a, b, m])
    (by rw [List.length_replicate, Nat.add_comm]; exact Nat.le_refl _) fun m hm => ⟨_, h3 a b m hm, m, hm, rfl, rfl⟩) ?_
  rintro _ _ ⟨m, hm, rfl, rfl⟩
  simp only []
  have e : (over (List.replicate (recMax + 64) 0) 64 m).drop 64 = m ++ (List.replicate (recMax + 64) (0 : Byte)).drop (64 + m.length) := by
    unfold over
    rw [List.drop_left' (by rw [List.length_take, List.length_replicate]; decide)]
  refine Tr.bind (Tr.lift (Q := fun r q => r = m ∧ q = F [a, b, m]) ⟨_, readN_ok _ _ ?_, ?_, rfl⟩) ?_
  · rw [e]; simp
  · rw [e, List.take_left]
  rintro x _ ⟨h', rfl⟩
  subst h'
  exact Tr.pure ⟨a, b, x, by rw [leNat_int, leNat_int], rfl⟩

theorem serveDecrypt_tr {p : P} (src out : Bytes) (st : p.σ) :
    Tr p src out (.dec []) (serveDecrypt p st) fun _ q => q = .serving := by
  unfold serveDecrypt
  refine Tr.bind (readRecord_tr src out .dec (fun m h => .decType h) (fun a m h => .decVersion h) (fun a b m h => .decData h)) ?_
  rintro _ _ ⟨a, b, m, rfl, rfl⟩
  simp only []
  refine Tr.actA .dec (by simp) (by simp) (by simp) (TrA.lift ?_ (fun hu l => ⟨l, _, rfl, st, .inl hu⟩))
  rintro ⟨st', _ | ⟨raw, y⟩⟩ hdec
  · refine Tr.toA ?_
    refine Tr.bind (Tr.send (Q := fun _ q => q = .data) (by simp) (.decOff (by decide) (by decide)) rfl) ?_
    rintro _ _ rfl
    refine Tr.bind (Tr.send (Q := fun _ q => q = .serving) (by simp) (.data (by simp)) rfl) ?_
    rintro _ _ rfl
    exact Tr.pure rfl
  · refine TrA.lift ?_ (fun hu l => ⟨l, _, rfl, st, .inr ⟨st', raw, y, hdec, place_ub hu⟩⟩)
    intro u hu
    refine Tr.toA ?_
    obtain ⟨g1, g2⟩ := place_ok hu
    split
    · exact Tr.stop
    · refine Tr.bind (Tr.send (Q := fun _ q => q = .data) (by simp)
        (.decOff (by rw [offByte_schar _ (by omega) (by omega)]; omega) (by rw [offByte_schar _ (by omega) (by omega)]; omega)) rfl) ?_
      rintro _ _ rfl
      refine Tr.bind (Tr.send (Q := fun _ q => q = .serving) (by omega) (.data (by omega)) rfl) ?_
      rintro _ _ rfl
      exact Tr.pure rfl

theorem serveEncrypt_tr {p : P} (src out : Bytes) (st : p.σ) :
    Tr p src out (.enc []) (serveEncrypt p st) fun _ q => q = .serving := by
  unfold serveEncrypt
  refine Tr.bind (readRecord_tr src out .enc (fun m h => .encType h) (fun a m h => .encVersion h) (fun a b m h => .encData h)) ?_
  rintro _ _ ⟨a, b, m, rfl, rfl⟩
  simp only []
  refine Tr.actA .enc (by simp) (by simp) (by simp) (TrA.lift ?_ (fun hu l => ⟨l, _, rfl, st, .inl hu⟩))
  rintro ⟨st', raw, y⟩ henc
  simp only []
  refine TrA.lift ?_ (fun hu l => ⟨l, _, rfl, st, .inr ⟨st', raw, y, henc, place_ub hu⟩⟩)
  intro u hu
  refine Tr.toA ?_
  obtain ⟨g1, g2⟩ := place_ok hu
  split
  · exact Tr.stop
  · refine Tr.bind (Tr.send (Q := fun _ q => q = .data) (by simp)
      (.encOff (by rw [offByte_schar _ (by omega) (by omega)]; omega) (by rw [offByte_schar _ (by omega) (by omega)]; omega)) rfl) ?_
    rintro _ _ rfl
    refine Tr.bind (Tr.send (Q := fun _ q => q = .serving) (by omega) (.data (by omega)) rfl) ?_
    rintro _ _ rfl
    exact Tr.pure rfl

theorem serveOne_tr {p : P} (hp : Lawful p) (src out : Bytes) (st : p.σ) (i : Nat) :
    Tr p src out .serving (serveOne p i st) fun _ q => q = .serving := by
  unfold serveOne
  refine Tr.bind (Tr.readfix (Q := fun a q => (leNat a = 0 → q = .prf []) ∧ (leNat a = 1 → q = .dec []) ∧ (leNat a = 2 → q = .enc [])) rfl ?_) ?_
  · intro x hx
    obtain ⟨b, rfl⟩ := len1 hx
    have hb : leNat [b] = b.toNat := by simp [leNat]
    rw [hb]
    by_cases h0 : b = 0
    · subst h0; exact ⟨_, .askPrf, by simp⟩
    by_cases h1 : b = 1
    · subst h1; exact ⟨_, .askDec, by simp⟩
    by_cases h2 : b = 2
    · subst h2; exact ⟨_, .askEnc, by simp⟩
    have g0 : b.toNat ≠ 0 := fun h => h0 (UInt8.toNat_inj.mp h)
    have g1 : b.toNat ≠ 1 := fun h => h1 (UInt8.toNat_inj.mp h)
    have g2 : b.toNat ≠ 2 := fun h => h2 (UInt8.toNat_inj.mp h)
    exact ⟨_, .askOther (by omega), fun h => absurd h g0, fun h => absurd h g1, fun h => absurd h g2⟩
  rintro a q ⟨h0, h1, h2⟩
  by_cases e0 : leNat a = 0
  · rw [if_pos e0, h0 e0]; exact servePrf_tr hp src out st i
  rw [if_neg e0]
  by_cases e1 : leNat a = 1
  · rw [if_pos e1, h1 e1]; exact serveDecrypt_tr src out st
  rw [if_neg e1]
  by_cases e2 : leNat a = 2
  · rw [if_pos e2, h2 e2]; exact serveEncrypt_tr src out st
  rw [if_neg e2]
  exact Tr.stop

theorem serve_tr {p : P} (hp : Lawful p) (src out : Bytes) (i : Nat) (alive : List Bool) (st : p.σ) :
    Tr p src out .serving (serve p i alive st) fun _ _ => False := by
  induction alive generalizing st with
  | nil => exact Tr.blocked
  | cons b alive ih =>
    cases b with
    | false => exact Tr.stop
    | true =>
      refine Tr.bind (serveOne_tr hp src out st i) ?_
      rintro st' _ rfl
      exact ih st'

theorem keyjail_tr {p : P} (hp : Lawful p) (src out : Bytes) :
    Tr p src out (.names none) (keyjail p) fun _ _ => False := by
  unfold keyjail
  refine Tr.bind (loadLoop_tr hp src out p.loads (fun _ h => h) p.certfn hp.certfn _ none (fun _ => rfl)) ?_
  rintro pem _ ⟨k, rfl, hk⟩
  refine Tr.bind (enterJail_tr src out k) ?_
  intro _ ph hph
  refine Tr.bind (keygen_tr hp src out k ph hph) ?_
  rintro ⟨curve, pk, pklen, sk⟩ _ ⟨c, x, rfl, h1, h2⟩
  simp only [] at h1 h2 ⊢
  subst h1
  refine Tr.bind (signOnce_tr hp src out k c x pem hk) ?_
  rintro _ _ rfl
  refine Tr.bind (agreeOnce_tr src out c x pk pklen sk h2) ?_
  rintro ⟨st, i⟩ _ rfl
  exact serve_tr hp src out i p.alive st

end Key
