import Verif.Crt.Model
import Verif.Stralloc.Lemmas
import Verif.BaseLemmas
/-
C75: parsing a bundle yields exactly its certificates. C76: and exactly its private key.
-/
namespace Crt
open Stralloc

/-- Going from `ans` to `ans'` took at most `c` requests. -/
def Spend (c : Nat) (ans ans' : List Bool) : Prop := ∀ k, Plenty (c + k) ans → Plenty k ans'

theorem Plenty.mono {k m : Nat} {ans : List Bool} (h : Plenty k ans) (hm : m ≤ k) : Plenty m ans := ⟨by have := h.1; omega, h.2⟩

theorem Spend.refl (c : Nat) (ans : List Bool) : Spend c ans ans := fun _ h => h.mono (by omega)

theorem Spend.trans {c d : Nat} {a b e : List Bool} (h1 : Spend c a b) (h2 : Spend d b e) : Spend (c + d) a e :=
  fun k h => h2 k (h1 (d + k) (by rw [Nat.add_assoc] at h; exact h))

theorem Spend.mono {c d : Nat} {a b : List Bool} (h1 : Spend c a b) (h : c ≤ d) : Spend d a b :=
  fun k hp => h1 k (hp.mono (by omega))

theorem Spend.tail (ans : List Bool) : Spend 1 ans ans.tail := by
  intro k h
  cases ans with
  | nil => have := h.1; simp at this
  | cons a t => exact ⟨by have := h.1; simp at this ⊢; omega, fun x hx => h.2 x (by simp at hx; simp [hx])⟩

theorem Spend.at {c k : Nat} {a b : List Bool} (h : Spend c a b) (hp : Plenty (c + k) a) : Plenty k b := h k hp

theorem Plenty.head {ans : List Bool} (h : Plenty 1 ans) : ans.head? = some true := by
  cases ans with
  | nil => have := h.1; simp at this
  | cons a t => simp [h.2 a (by simp)]

/-- Defined; if it goes on, then with `P`; it does go on if `s`. -/
def Runs {α : Type} (res : Out (Option α)) (P : α → Prop) (s : Prop) : Prop :=
  ∃ r, res = .ok r ∧ (∀ a, r = some a → P a) ∧ (s → r ≠ none)

theorem Runs.some {α : Type} {a : α} {P : α → Prop} {s : Prop} (h : P a) : Runs (.ok (some a)) P s :=
  ⟨_, rfl, fun _ e => by cases e; exact h, fun _ => by nofun⟩

theorem Runs.none {α : Type} {P : α → Prop} {s : Prop} (h : ¬ s) : Runs (.ok none) P s :=
  ⟨_, rfl, by nofun, fun hs => absurd hs h⟩

theorem Runs.andThen {α β : Type} {x : Out (Option α)} {f : α → Out (Option β)} {P : α → Prop} {Q : β → Prop} {s : Prop}
    (h : Runs x P s) (hf : ∀ a, P a → Runs (f a) Q s) : Runs (Crt.andThen x f) Q s := by
  obtain ⟨r, rfl, h1, h2⟩ := h
  cases r with
  | none => exact .none fun hs => h2 hs rfl
  | some a => exact hf a (h1 a rfl)

theorem xmemdup_ok (src : Option Bytes) (len : Nat) (ans : List Bool) (h : len ≤ (src.getD []).length) (hb : len < 2 ^ 62) (s : Prop)
    (hs : s → Plenty 1 ans) : Runs (xmemdup src len ans) (fun r => r.1 = (src.getD []).take len ∧ Spend 1 ans r.2) s := by
  unfold xmemdup
  cases ans with
  | nil => exact .none fun h => by have := (hs h).1; simp at this
  | cons a t =>
    unfold allocate
    cases a with
    | false => exact .none fun h => by have := (hs h).2 false (by simp); cases this
    | true =>
      simp only
      rw [if_pos ⟨by trivial, by omega⟩]
      simp only
      rw [copyN_full _ _ _ _ h (by simp)]
      refine .some ⟨?_, .tail _⟩
      simp

theorem append_ok (cs : List Bytes) : ∀ (s : SA) (ans : List Bool) (l : Bytes), Holds s l → l.length + cs.flatten.length < 2 ^ 61 →
    ∃ sa, append ⟨s, false, ans⟩ cs = .ok sa ∧ (sa.error = false → Holds sa.s (l ++ cs.flatten) ∧ Spend cs.length ans sa.ans) ∧
      (Plenty cs.length ans → sa.error = false) := by
  have err : ∀ (cs : List Bytes) (s : SA) (ans : List Bool), append ⟨s, true, ans⟩ cs = .ok ⟨s, true, ans⟩ := by
    intro cs s ans
    induction cs with
    | nil => rfl
    | cons c cs ih => unfold append; exact ih
  induction cs with
  | nil =>
    intro s ans l h _
    exact ⟨_, rfl, fun _ => ⟨by simpa using h, .refl _ _⟩, fun _ => rfl⟩
  | cons c cs ih =>
    intro s ans l h hb
    simp only [List.flatten_cons, List.length_append] at hb
    obtain ⟨ok, s', ans', e1, e2, e3⟩ := catb_ok s l h c c.length (by omega) (by omega) (by omega) ans
    unfold append
    simp only [e1]
    rcases e3 with ⟨rfl, rfl, e3⟩ | ⟨rfl, e3⟩
    · refine ⟨⟨s', true, ans'⟩, err _ _ _, by nofun, fun hp => ?_⟩
      exact absurd (hp.mono (by simp : 1 ≤ _)).head e3
    · simp only [Int.toNat_natCast, List.take_length] at e3
      obtain ⟨sa, f1, f2, f3⟩ := ih s' ans' (l ++ c) e3 (by simp only [List.length_append]; omega)
      have hsp : Spend 1 ans ans' := by
        rcases e2 with rfl | rfl
        · exact .refl _ _
        · exact .tail _
      refine ⟨sa, f1, fun he => ?_, fun hp => f3 (hsp _ (hp.mono (by simp; omega)))⟩
      obtain ⟨f4, f5⟩ := f2 he
      refine ⟨by simpa [List.append_assoc] using f4, ?_⟩
      have := hsp.trans f5
      rwa [Nat.add_comm] at this

theorem holds_reset {s : SA} {l : Bytes} (h : Holds s l) : Holds { s with len := 0 } [] := by
  rcases h with ⟨rfl, rfl⟩ | ⟨b, h1, h2, h3, h4, h5, h6⟩
  · exact .inl ⟨rfl, rfl⟩
  · exact .inr ⟨b, h1, h2, rfl, by simp only; omega, h5, by simp⟩

theorem holds_dup {s : SA} {l : Bytes} (h : Holds s l) : s.len = l.length ∧ s.len ≤ (s.s.getD []).length ∧ (s.s.getD []).take s.len = l := by
  rcases h with ⟨rfl, rfl⟩ | ⟨b, h1, h2, h3, h4, h5, h6⟩
  · exact ⟨rfl, Nat.le_refl _, rfl⟩
  · rw [h1]; exact ⟨h3, by simp only [Option.getD_some]; omega, h6⟩

theorem keyOf_ok (pk : Pkey) (ans : List Bool) (hb : pk.size < 2 ^ 60) (s : Prop) (hs : s → Plenty 2 ans ∧ ∀ t, pk ≠ .other t) :
    Runs (keyOf pk ans) (fun r => r.1 = pk ∧ (∀ t, pk ≠ .other t) ∧ Spend 2 ans r.2) s := by
  cases pk with
  | other t => exact .none fun h => (hs h).2 t rfl
  | ec c q =>
    simp only [Pkey.size] at hb
    refine .andThen (xmemdup_ok (some q) _ _ (by simp) (by omega) s fun h => (hs h).1.mono (by omega)) fun r hr => .some ?_
    refine ⟨by rw [hr.1]; simp, by nofun, hr.2.mono (by omega)⟩
  | rsa n e =>
    simp only [Pkey.size] at hb
    refine .andThen (xmemdup_ok (some n) _ _ (by simp) (by omega) s fun h => (hs h).1.mono (by omega)) fun r hr => ?_
    refine .andThen (xmemdup_ok (some e) _ _ (by simp) (by omega) s fun h => hr.2 1 (hs h).1) fun r2 hr2 => .some ?_
    refine ⟨by rw [hr.1, hr2.1]; simp, by nofun, hr.2.trans hr2.2⟩

theorem endCert_ok (x509 : Bytes → X509) (hX : Small x509) (p : Pub) (d : Bytes) (hd : d.length < 2 ^ 60) (he : p.sa.error = false)
    (hh : Holds p.sa.s d) (hn : p.crt.length < MAX) (ht : p.ta.length = p.crt.length) (s : Prop)
    (hs : s → Plenty (cost (x509 d)) p.sa.ans ∧ ∃ a, Usable (x509 d) a) :
    Runs (endCert x509 p) (fun q => ∃ a, Usable (x509 d) a ∧ q.crt = p.crt ++ [d] ∧ q.ta = p.ta ++ [a] ∧
      q.keyType = (if p.crt.length = 0 then a.pkey.type else p.keyType) ∧ q.inobj = p.inobj ∧ q.sa.error = false ∧ (∃ l, Holds q.sa.s l) ∧
      Spend (cost (x509 d)) p.sa.ans q.sa.ans) s := by
  unfold endCert
  rw [if_neg (by omega)]
  obtain ⟨g1, g2, g3⟩ := holds_dup hh
  refine .andThen (xmemdup_ok _ _ _ g2 (by omega) s fun h => (hs h).1.mono (by unfold cost; omega)) ?_
  rintro ⟨d', ans1⟩ ⟨hr1, hr2⟩
  rw [g3] at hr1
  simp only at hr1 hr2 ⊢
  subst hr1
  rw [he]
  obtain ⟨sa, e1, e2, e3⟩ := append_ok (x509 d').dn { p.sa.s with len := 0 } ans1 [] (holds_reset hh) (by
    have := (hX d' hd).1; simp only [List.length_nil]; omega)
  rw [e1]
  simp only
  unfold anchor
  by_cases hse : sa.error = true
  · rw [if_pos hse]
    refine .none fun h => ?_
    have := e3 (hr2 _ ((hs h).1.mono (by unfold cost; omega)))
    rw [hse] at this; cases this
  · have hse : sa.error = false := by simpa using hse
    obtain ⟨e4, e5⟩ := e2 hse
    rw [hse, if_neg (by simp)]
    by_cases herr : (x509 d').err = 0
    · rw [if_neg (by simp [herr])]
      cases hpk : (x509 d').pkey with
      | none =>
        refine .none fun h => ?_
        obtain ⟨-, a, ha⟩ := hs h
        rw [ha.2.1] at hpk; cases hpk
      | some pk =>
        simp only
        obtain ⟨k1, k2, k3⟩ := holds_dup e4
        have hsp := hr2.trans e5
        refine .andThen (xmemdup_ok _ _ _ k2 (by have := (hX d' hd).1; rw [List.nil_append] at k1; omega) s fun h =>
          hsp 1 ((hs h).1.mono (by unfold cost; omega))) ?_
        rintro ⟨dn, ans2⟩ ⟨hdn, h2⟩
        rw [k3] at hdn
        simp only at hdn h2 ⊢
        have hsp2 := hsp.trans h2
        refine .andThen (keyOf_ok pk ans2 ((hX d' hd).2 pk hpk) s fun h => ⟨hsp2 2 ((hs h).1.mono (by unfold cost; omega)), fun t ht => ?_⟩) ?_
        · obtain ⟨-, a, ha⟩ := hs h
          rw [ha.2.1] at hpk
          exact ha.2.2.1 t ((Option.some.inj hpk).trans ht)
        · rintro ⟨k, ans3⟩ ⟨hk1, hk2, hk3⟩
          simp only at hk1 hk3 ⊢
          subst hk1
          unfold store
          rw [if_pos hn, if_pos (by omega)]
          simp only
          refine .some ⟨⟨dn, (x509 d').ca, k⟩, ⟨herr, hpk, hk2, by simpa using hdn, rfl⟩, rfl, rfl, rfl, rfl, rfl, ⟨_, e4⟩, ?_⟩
          exact (hsp2.trans hk3).mono (by unfold cost; omega)
    · rw [if_pos herr]
      refine .none fun h => ?_
      obtain ⟨-, a, ha⟩ := hs h
      exact herr ha.1

theorem Each.snoc {α β : Type} {R : α → β → Prop} {l : List α} {m : List β} {a : α} {b : β} (h : Each R l m) (hab : R a b) :
    Each R (l ++ [a]) (m ++ [b]) := by
  induction h with
  | nil => exact .cons hab .nil
  | cons h _ ih => exact .cons h ih

theorem Each.length {α β : Type} {R : α → β → Prop} {l : List α} {m : List β} (h : Each R l m) : m.length = l.length := by
  induction h with
  | nil => rfl
  | cons _ _ ih => simp [ih]

/-- Between two calls of the decoder: the certificates `done` are complete, `cur` is being read. -/
structure Inv (x509 : Bytes → X509) (p : Pub) (cur : Option (Bytes × Bytes)) (done : List Bytes) : Prop where
  obj : p.inobj = cur.isSome
  err : p.sa.error = false
  crt : p.crt = done
  ta : Each (fun d a => Usable (x509 d) a) done p.ta
  type : p.keyType = p.ta.head?.bind (·.pkey.type)
  few : done.length ≤ MAX
  holds : ∃ l, Holds p.sa.s l
  here : ∀ n b, cur = some (n, b) → if isCert n then p.dest = true ∧ Holds p.sa.s b ∧ done.length < MAX else p.dest = false

theorem certs_cons (n b : Bytes) (objs : List (Bytes × Bytes)) : certs ((n, b) :: objs) = if isCert n then b :: certs objs else certs objs := by
  unfold certs
  rw [List.filter_cons]
  by_cases h : isCert n <;> simp [h]

theorem Runs.weaken {α : Type} {x : Out (Option α)} {P : α → Prop} {s t : Prop} (h : Runs x P s) (hs : t → s) : Runs x P t := by
  obtain ⟨r, e, h1, h2⟩ := h
  exact ⟨r, e, h1, fun ht => h2 (hs ht)⟩

theorem Runs.imp {α : Type} {x : Out (Option α)} {P Q : α → Prop} {s : Prop} (h : Runs x P s) (hp : ∀ a, P a → Q a) : Runs x Q s := by
  obtain ⟨r, e, h1, h2⟩ := h
  exact ⟨r, e, fun a ha => hp a (h1 a ha), h2⟩

theorem deliver_nil (p : Pub) : deliver p [] = .ok p := by
  unfold deliver append
  by_cases h : p.dest = true
  · rw [if_pos h]
  · rw [if_neg h]

theorem deliver_off (p : Pub) (cs : List Bytes) (h : p.dest = false) : deliver p cs = .ok p := by
  unfold deliver
  rw [h]
  rfl

theorem deliver_ok (p : Pub) (b : Bytes) (cs : List Bytes) (hd : p.dest = true) (he : p.sa.error = false) (hh : Holds p.sa.s b)
    (hb : b.length + cs.flatten.length < 2 ^ 61) :
    ∃ sa, deliver p cs = .ok { p with sa := sa } ∧ (sa.error = false → Holds sa.s (b ++ cs.flatten) ∧ Spend cs.length p.sa.ans sa.ans) ∧
      (Plenty cs.length p.sa.ans → sa.error = false) := by
  obtain ⟨sa, e1, e2⟩ := append_ok cs p.sa.s p.sa.ans b hh hb
  refine ⟨sa, ?_, e2⟩
  unfold deliver
  rw [hd]
  simp only [if_true]
  have : p.sa = ⟨p.sa.s, false, p.sa.ans⟩ := by rw [← he]
  rw [this, e1]

theorem pubLoop_step (x509 : Bytes → X509) (p p' : Pub) (x : Push) (xs : List Push) (h : deliver p x.chunks = .ok p') (he : p'.sa.error = false) :
    pubLoop x509 p (x :: xs) = andThen (event x509 p' x.ev) fun p => pubLoop x509 p xs := by
  rw [pubLoop, h]
  simp [he]

theorem pubLoop_stop (x509 : Bytes → X509) (p p' : Pub) (x : Push) (xs : List Push) (h : deliver p x.chunks = .ok p') (he : p'.sa.error = true) :
    pubLoop x509 p (x :: xs) = .ok none := by
  rw [pubLoop, h]
  simp [he]

/-- An object that has begun, in an input that ends well, is the first to be complete. -/
theorem stream_in {n b : Bytes} {ps : List Push} {objs : List (Bytes × Bytes)} {e : Ending} (h : Stream (some (n, b)) ps objs e) (he : e = .whole) :
    ∃ b' objs', objs = (n, b') :: objs' := by
  generalize hc : some (n, b) = cur at h
  induction h generalizing b with
  | done => cases hc
  | cut => cases he
  | idle _ _ => cases hc
  | begin _ _ => cases hc
  | data _ ih => cases hc; exact ih he rfl
  | fin _ _ => cases hc; exact ⟨_, _, rfl⟩
  | error _ => cases he

theorem pubLoop_ok (x509 : Bytes → X509) (hX : Small x509) {cur : Option (Bytes × Bytes)} {ps : List Push} {objs : List (Bytes × Bytes)}
    {e : Ending} (h : Stream cur ps objs e) : ∀ (p : Pub) (done : List Bytes), Inv x509 p cur done →
    (cur.map (·.2.length)).getD 0 + total ps < 2 ^ 60 →
    Runs (pubLoop x509 p ps) (fun q => e ≠ .malformed ∧ q.inobj = decide (e = .cut) ∧ q.crt = done ++ certs objs ∧
      Each (fun d a => Usable (x509 d) a) q.crt q.ta ∧ q.keyType = q.ta.head?.bind (·.pkey.type) ∧ q.crt.length ≤ MAX)
      (e = .whole ∧ (done ++ certs objs).length ≤ MAX ∧ (∀ d ∈ certs objs, ∃ a, Usable (x509 d) a) ∧ Plenty (budget x509 ps objs) p.sa.ans) := by
  induction h with
  | done =>
    intro p done inv _
    exact .some ⟨by nofun, inv.obj, by simp [certs, inv.crt], by rw [inv.crt]; exact inv.ta, inv.type, by rw [inv.crt]; exact inv.few⟩
  | cut =>
    intro p done inv _
    exact .some ⟨by nofun, inv.obj, by simp [certs, inv.crt], by rw [inv.crt]; exact inv.ta, inv.type, by rw [inv.crt]; exact inv.few⟩
  | @idle ps objs e _ ih =>
    intro p done inv hb
    have h0 : pubLoop x509 p (⟨[], .none⟩ :: ps) = pubLoop x509 p ps := pubLoop_step x509 p p _ _ (deliver_nil p) inv.err
    rw [h0]
    refine (ih p done inv (by simpa [total] using hb)).weaken ?_
    simp [budget]
  | @begin n ps objs e _ ih =>
    intro p done inv hb
    have h0 : pubLoop x509 p (⟨[], .begin n⟩ :: ps) = andThen (.ok (onBegin p n)) fun p => pubLoop x509 p ps :=
      pubLoop_step x509 p p _ _ (deliver_nil p) inv.err
    rw [h0]
    have hobj : p.inobj = false := inv.obj
    unfold onBegin
    rw [hobj, if_neg (by simp)]
    have hb' : total ps < 2 ^ 60 := by simpa [total] using hb
    by_cases hc : isCert n
    · rw [if_pos hc]
      by_cases hm : p.crt.length ≥ MAX
      · rw [if_pos hm]
        refine .none ?_
        rintro ⟨rfl, h2, -⟩
        obtain ⟨b, objs', rfl⟩ := stream_in ‹_› rfl
        rw [certs_cons, if_pos hc, ← inv.crt] at h2
        simp at h2
        omega
      · rw [if_neg hm]
        obtain ⟨l, hl⟩ := inv.holds
        refine (ih { p with inobj := true, dest := true, sa := { p.sa with s := { p.sa.s with len := 0 } } } done
          ⟨rfl, inv.err, inv.crt, inv.ta, inv.type, inv.few, ⟨_, holds_reset hl⟩, ?_⟩ (by simpa using hb')).weaken ?_
        · rintro n' b' e'
          cases e'
          rw [if_pos hc]
          exact ⟨rfl, holds_reset hl, by rw [← inv.crt]; omega⟩
        · simp [budget]
    · rw [if_neg hc]
      refine (ih { p with inobj := true, dest := false } done ⟨rfl, inv.err, inv.crt, inv.ta, inv.type, inv.few, inv.holds, ?_⟩ (by simpa using hb')).weaken ?_
      · rintro n' b' e'
        cases e'
        rw [if_neg hc]
      · simp [budget]
  | @data n b cs ps objs e _ ih =>
    intro p done inv hb
    have hh := inv.here n b rfl
    simp only [Option.map_some, Option.getD_some, total, List.map_cons, List.sum_cons] at hb
    by_cases hc : isCert n
    · rw [if_pos hc] at hh
      obtain ⟨hd, hh, hm⟩ := hh
      obtain ⟨sa, e1, e2, e3⟩ := deliver_ok p b cs hd inv.err hh (by omega)
      cases hse : sa.error with
      | true =>
        have h0 : pubLoop x509 p (⟨cs, .none⟩ :: ps) = .ok none := pubLoop_stop x509 p _ _ _ e1 hse
        rw [h0]
        refine .none ?_
        rintro ⟨-, -, -, h⟩
        have := e3 (h.mono (by simp only [budget, List.map_cons, List.sum_cons]; omega))
        rw [hse] at this; cases this
      | false =>
        have h0 : pubLoop x509 p (⟨cs, .none⟩ :: ps) = pubLoop x509 { p with sa := sa } ps := pubLoop_step x509 p _ _ _ e1 hse
        rw [h0]
        obtain ⟨e4, e5⟩ := e2 hse
        refine (ih { p with sa := sa } done ⟨inv.obj, hse, inv.crt, inv.ta, inv.type, inv.few, ⟨_, e4⟩, ?_⟩ ?_).weaken ?_
        · rintro n' b' e'
          cases e'
          rw [if_pos hc]
          exact ⟨hd, e4, hm⟩
        · simp only [Option.map_some, Option.getD_some, List.length_append, total]; omega
        · rintro ⟨h1, h2, h3, h4⟩
          exact ⟨h1, h2, h3, e5 _ (h4.mono (by simp only [budget, List.map_cons, List.sum_cons]; omega))⟩
    · rw [if_neg hc] at hh
      have h0 : pubLoop x509 p (⟨cs, .none⟩ :: ps) = pubLoop x509 p ps := pubLoop_step x509 p p _ _ (deliver_off p cs hh) inv.err
      rw [h0]
      refine (ih p done ⟨inv.obj, inv.err, inv.crt, inv.ta, inv.type, inv.few, inv.holds, ?_⟩ ?_).weaken ?_
      · rintro n' b' e'
        cases e'
        rw [if_neg hc]
        exact hh
      · simp only [Option.map_some, Option.getD_some, List.length_append, total]; omega
      · rintro ⟨h1, h2, h3, h4⟩
        exact ⟨h1, h2, h3, h4.mono (by simp only [budget, List.map_cons, List.sum_cons]; omega)⟩
  | @fin n b cs ps objs e hst ih =>
    intro p done inv hb
    have hh := inv.here n b rfl
    have hobj : p.inobj = true := inv.obj
    simp only [Option.map_some, Option.getD_some, total, List.map_cons, List.sum_cons] at hb
    have hb' : (Option.map (fun x : Bytes × Bytes => x.2.length) none).getD 0 + total ps < 2 ^ 60 := by
      simp only [Option.map_none, Option.getD_none, total]; omega
    by_cases hc : isCert n
    · rw [if_pos hc] at hh
      obtain ⟨hd, hh, hm⟩ := hh
      obtain ⟨sa, e1, e2, e3⟩ := deliver_ok p b cs hd inv.err hh (by omega)
      cases hse : sa.error with
      | true =>
        have h0 : pubLoop x509 p (⟨cs, .fin n⟩ :: ps) = .ok none := pubLoop_stop x509 p _ _ _ e1 hse
        rw [h0]
        refine .none ?_
        rintro ⟨-, -, -, h⟩
        have := e3 (h.mono (by simp only [budget, List.map_cons, List.sum_cons]; omega))
        rw [hse] at this; cases this
      | false =>
        obtain ⟨e4, e5⟩ := e2 hse
        have h0 : pubLoop x509 p (⟨cs, .fin n⟩ :: ps) =
            andThen (endCert x509 { p with sa := sa, inobj := false }) fun p => pubLoop x509 p ps := by
          rw [pubLoop_step x509 p _ _ _ e1 hse]
          unfold event
          simp only
          rw [hobj, if_neg (by simp), if_pos hc]
        rw [h0]
        refine .andThen (endCert_ok x509 hX _ (b ++ cs.flatten) (by simp only [List.length_append]; omega) hse e4
          (by simp only [inv.crt]; exact hm) (by simp only [inv.crt]; exact inv.ta.length) _ ?_) ?_
        · rintro ⟨-, -, h3, h4⟩
          rw [certs_cons, if_pos hc] at h3
          refine ⟨e5 _ (h4.mono ?_), h3 _ (by simp)⟩
          simp only [budget, certs_cons, if_pos hc, List.map_cons, List.sum_cons]
          omega
        · rintro q ⟨a, ha, q1, q2, q3, q4, q5, q6, q7⟩
          refine ((ih q (done ++ [b ++ cs.flatten]) ⟨q4, q5, by rw [q1, inv.crt], ?_, ?_, by simp only [List.length_append, List.length_singleton]; omega, q6, by nofun⟩
            hb').weaken ?_).imp ?_
          · rw [q2]
            exact inv.ta.snoc ha
          · rw [q3, q2]
            have hl := inv.ta.length
            simp only [inv.crt]
            cases hta : p.ta with
            | nil =>
              rw [hta] at hl
              rw [if_pos (by simpa using hl.symm)]
              rfl
            | cons t ts =>
              rw [hta] at hl
              rw [if_neg (by rw [← hl]; simp), inv.type, hta]
              rfl
          · rintro ⟨h1, h2, h3, h4⟩
            rw [certs_cons, if_pos hc] at h2 h3
            refine ⟨h1, by simpa [Nat.add_assoc, Nat.add_comm 1] using h2, fun d hd => h3 d (by simp [hd]), (e5.trans q7) _ (h4.mono ?_)⟩
            simp only [budget, certs_cons, if_pos hc, List.map_cons, List.sum_cons]
            omega
          · rintro q' ⟨r1, r2, r3, r4, r5, r6⟩
            exact ⟨r1, r2, by rw [r3, certs_cons, if_pos hc]; simp, r4, r5, r6⟩
    · rw [if_neg hc] at hh
      have h0 : pubLoop x509 p (⟨cs, .fin n⟩ :: ps) = pubLoop x509 { p with inobj := false } ps := by
        rw [pubLoop_step x509 p p _ _ (deliver_off p cs hh) inv.err]
        unfold event
        simp only
        rw [hobj, if_neg (by simp), if_neg hc]
        rfl
      rw [h0]
      refine ((ih { p with inobj := false } done ⟨rfl, inv.err, inv.crt, inv.ta, inv.type, inv.few, inv.holds, by nofun⟩ hb').weaken ?_).imp ?_
      · rintro ⟨h1, h2, h3, h4⟩
        rw [certs_cons, if_neg hc] at h2 h3
        refine ⟨h1, h2, h3, h4.mono ?_⟩
        simp only [budget, certs_cons, if_neg hc, List.map_cons, List.sum_cons]
        omega
      · rintro q ⟨r1, r2, r3, r4⟩
        exact ⟨r1, r2, by rw [r3, certs_cons, if_neg hc], r4⟩
  | @error cur cs ps hc =>
    intro p done inv hb
    have : pubLoop x509 p (⟨cs, .error⟩ :: ps) = .ok none := by
      cases cur with
      | none =>
        rw [hc rfl]
        exact pubLoop_step x509 p p _ _ (deliver_nil p) inv.err
      | some nb =>
        obtain ⟨n, b⟩ := nb
        have hh := inv.here n b rfl
        simp only [Option.map_some, Option.getD_some, total, List.map_cons, List.sum_cons] at hb
        by_cases hcn : isCert n
        · rw [if_pos hcn] at hh
          obtain ⟨sa, e1, e2, e3⟩ := deliver_ok p b cs hh.1 inv.err hh.2.1 (by omega)
          cases hse : sa.error with
          | true => exact pubLoop_stop x509 p _ _ _ e1 hse
          | false => exact pubLoop_step x509 p _ _ _ e1 hse
        · rw [if_neg hcn] at hh
          exact pubLoop_step x509 p p _ _ (deliver_off p cs hh) inv.err
    rw [this]
    exact .none (by rintro ⟨h, -⟩; cases h)

/-- C75. Parsing is defined for every input and every behaviour of the allocator. What it accepts is a complete
bundle with 1 to 16 certificates, each with a usable key; the result is exactly these, in order, each with the anchor made
of its own name, key and CA flag, and the key type is the first one's. And it accepts every such bundle if
memory suffices. -/
theorem c75_chain (x509 : Bytes → X509) (hX : Small x509) (ps : List Push) (objs : List (Bytes × Bytes)) (e : Ending)
    (hs : Stream none ps objs e) (hb : total ps < 2 ^ 60) (ans : List Bool) :
    ∃ r, tls_pubcrt_parse x509 ps ans = .ok r ∧
      (∀ c, r = some c → e = .whole ∧ c.crt = certs objs ∧ c.crt ≠ [] ∧ c.crt.length ≤ 16 ∧
        Each (fun d a => Usable (x509 d) a) c.crt c.ta ∧ FirstType x509 c.crt c.keyType) ∧
      (e = .whole → certs objs ≠ [] → (certs objs).length ≤ 16 → (∀ d ∈ certs objs, ∃ a, Usable (x509 d) a) →
        Plenty (budget x509 ps objs) ans → r ≠ none) := by
  have inv : Inv x509 ⟨false, false, ⟨SA.zero, false, ans⟩, [], [], none⟩ none [] :=
    ⟨rfl, rfl, rfl, .nil, rfl, by decide, ⟨[], .inl ⟨rfl, rfl⟩⟩, by nofun⟩
  obtain ⟨r, e1, e2, e3⟩ := pubLoop_ok x509 hX hs _ [] inv (by simpa using hb)
  unfold tls_pubcrt_parse
  rw [e1]
  cases r with
  | none =>
    refine ⟨none, rfl, by nofun, fun h1 h2 h3 h4 h5 => ?_⟩
    exact absurd rfl (e3 ⟨h1, by simpa [MAX] using h3, h4, h5⟩)
  | some q =>
    obtain ⟨q1, q2, q3, q4, q5, q6⟩ := e2 q rfl
    simp only [List.nil_append] at q3
    unfold andThen
    simp only
    cases he : e with
    | malformed => exact absurd he q1
    | cut =>
      rw [q2, he]
      exact ⟨none, rfl, by nofun, by nofun⟩
    | whole =>
      rw [q2, he, if_neg (by decide)]
      by_cases hl : q.crt.length = 0
      · rw [if_pos hl]
        refine ⟨none, rfl, by nofun, fun _ h2 => ?_⟩
        rw [← q3] at h2
        exact absurd (List.length_eq_zero_iff.mp hl) h2
      · rw [if_neg hl]
        refine ⟨_, rfl, ?_, fun _ _ _ _ _ => by nofun⟩
        rintro c hc
        cases hc
        refine ⟨rfl, q3, fun h => hl (by simp only at h; rw [h]; rfl), q6, q4, ?_⟩
        simp only
        cases hcrt : q.crt with
        | nil => rw [hcrt] at hl; exact absurd rfl hl
        | cons d rest =>
          rw [hcrt] at q4
          generalize hta : q.ta = ta at q4
          cases q4 with
          | @cons _ a _ m hu _ =>
            refine ⟨d, rest, a.pkey, rfl, hu.2.1, ?_⟩
            rw [q5, hta]
            rfl

/-- Every anchor belongs to the certificate at its place (so that a chain and its anchors cannot be mixed up). -/
theorem c75_aligned (x509 : Bytes → X509) (c : Parsed) (h : Each (fun d a => Usable (x509 d) a) c.crt c.ta) (i : Nat) :
    (∀ d, c.crt[i]? = some d → ∃ a, c.ta[i]? = some a ∧ Usable (x509 d) a) ∧ (c.crt[i]? = none → c.ta[i]? = none) := by
  obtain ⟨k, crt, ta⟩ := c
  simp only at h ⊢
  induction h generalizing i with
  | nil => exact ⟨by simp, by simp⟩
  | @cons a b l m hab _ ih =>
    cases i with
    | zero => simp [hab]
    | succ i => simpa using ih i

/-- A decoder for the examples: EC certificates that begin with their name's length. -/
def sample : Bytes → X509 := fun d =>
  match d with
  | [] => ⟨[], 40, none, false⟩
  | 255 :: _ => ⟨[], 0, some (.other 9), false⟩
  | b :: t => ⟨[t.take 1, (t.drop 1).take (b.toNat - 1)], 0, some (.ec 23 (t.drop b.toNat)), b = 2⟩

theorem sample_small : Small sample := by
  intro d hd
  unfold sample
  split
  · simp
  · simp [Pkey.size]
  · rename_i b t _ 
    simp only [List.length_cons] at hd
    refine ⟨?_, ?_⟩
    · simp only [List.flatten_cons, List.flatten_nil, List.append_nil, List.length_append, List.length_take, List.length_drop]
      omega
    · intro k hk
      cases hk
      simp only [Pkey.size, List.length_drop]
      omega

/-- A bundle with a key, a certificate in two pieces, something else, and another certificate. -/
def bundle : List Push :=
  [⟨[], .begin b!"PRIVATE KEY"⟩, ⟨[[1], [2]], .fin b!"PRIVATE KEY"⟩, ⟨[], .begin b!"CERTIFICATE"⟩, ⟨[[2, 7]], .none⟩, ⟨[[8, 9]], .fin b!"CERTIFICATE"⟩,
   ⟨[], .begin b!"DH PARAMETERS"⟩, ⟨[[1]], .fin b!"DH PARAMETERS"⟩, ⟨[], .none⟩,
   ⟨[], .begin b!"X509 CERTIFICATE"⟩, ⟨[[1, 5, 6]], .fin b!"X509 CERTIFICATE"⟩]

example : Stream none bundle [(b!"PRIVATE KEY", [1, 2]), (b!"CERTIFICATE", [2, 7, 8, 9]), (b!"DH PARAMETERS", [1]), (b!"X509 CERTIFICATE", [1, 5, 6])] .whole :=
  .begin (.fin (.begin (.data (.fin (.begin (.fin (.idle (.begin (.fin .done)))))))))

example : tls_pubcrt_parse sample bundle (List.replicate 12 true) =
    .ok (some ⟨some .ec, [[2, 7, 8, 9], [1, 5, 6]], [⟨[7, 8], true, .ec 23 [9]⟩, ⟨[5], false, .ec 23 [6]⟩]⟩) := by decide +kernel

/-- Refused: an empty bundle, an unfinished one, a bad certificate, an unknown kind of key, too little memory, and 17 certificates. -/
example : tls_pubcrt_parse sample [] (List.replicate 12 true) = .ok none ∧
    tls_pubcrt_parse sample (bundle.take 9) (List.replicate 12 true) = .ok none ∧
    tls_pubcrt_parse sample [⟨[], .begin b!"CERTIFICATE"⟩, ⟨[], .fin b!"CERTIFICATE"⟩] (List.replicate 12 true) = .ok none ∧
    tls_pubcrt_parse sample [⟨[], .begin b!"CERTIFICATE"⟩, ⟨[[255]], .fin b!"CERTIFICATE"⟩] (List.replicate 12 true) = .ok none ∧
    tls_pubcrt_parse sample bundle [true, true, false] = .ok none ∧
    tls_pubcrt_parse sample (List.replicate 17 [⟨[], .begin b!"CERTIFICATE"⟩, ⟨[[1, 5]], .fin b!"CERTIFICATE"⟩]).flatten (List.replicate 200 true) = .ok none := by
  decide +kernel

/-- The contract of the decoder matters: if an object could end under another name than it began with, a 17th certificate would be
stored behind the array. (BearSSL compares the names.) -/
theorem c75_needs_names : tls_pubcrt_parse sample ((List.replicate 16 [⟨[], .begin b!"CERTIFICATE"⟩, ⟨[[1, 5]], .fin b!"CERTIFICATE"⟩]).flatten ++
    [⟨[], .begin b!"X"⟩, ⟨[[1, 5]], .fin b!"CERTIFICATE"⟩]) (List.replicate 200 true) = .ub := by decide +kernel

/-! ### C76 -/

/-- BearSSL's private key decoder reports no error only for a key of one of its two types (skey_decoder: br_skey_decoder_last_error
and br_skey_decoder_key_type). -/
def Sound {κ : Type} (K : Skey κ) : Prop := ∀ d, K.err d = 0 → K.type d = some RSA ∨ K.type d = some EC

theorem keys_cons (n b : Bytes) (objs : List (Bytes × Bytes)) : keys ((n, b) :: objs) = if isKey n then b :: keys objs else keys objs := by
  unfold keys
  rw [List.filter_cons]
  by_cases h : isKey n <;> simp [h]

/-- Between two calls of the decoder: the keys `done` are complete. -/
structure KInv {κ : Type} (K : Skey κ) (p : Sec κ) (cur : Option (Bytes × Bytes)) (done : List Bytes) : Prop where
  obj : p.inobj = cur.isSome
  key : (done = [] ∧ p.key = none) ∨ ∃ d t, done = [d] ∧ K.err d = 0 ∧ K.type d = some t ∧ (t = RSA ∨ t = EC) ∧ p.keyType = t ∧ p.key = some (K.key d)
  dc : (∃ d, done = [d] ∧ p.keydc = some d) ∨ (done = [] ∧ ((∃ n b, cur = some (n, b) ∧ isKey n ∧ p.keydc = some b) ∨ ((∀ n b, cur = some (n, b) → ¬ isKey n) ∧ p.keydc = none)))
  here : ∀ n b, cur = some (n, b) → p.dest = decide (isKey n) ∧ (isKey n → done = [])

theorem secDeliver_nil {κ : Type} (p : Sec κ) : secDeliver p [] = p := by
  unfold secDeliver
  obtain ⟨i, d, k, t, y⟩ := p
  cases k <;> cases d <;> simp

theorem kinv_deliver {κ : Type} (K : Skey κ) (p : Sec κ) (n b : Bytes) (cs : List Bytes) (done : List Bytes) (inv : KInv K p (some (n, b)) done) :
    KInv K (secDeliver p cs) (some (n, b ++ cs.flatten)) done := by
  obtain ⟨h1, h2⟩ := inv.here n b rfl
  by_cases hk : isKey n
  · have hd : p.dest = true := by rw [h1]; simp [hk]
    have hdn := h2 hk
    have hdc : p.keydc = some b := by
      rcases inv.dc with ⟨d, h, -⟩ | ⟨-, ⟨n', b', h1, -, h2⟩ | ⟨h, -⟩⟩
      · rw [hdn] at h; cases h
      · cases h1; exact h2
      · exact absurd hk (h n _ rfl)
    unfold secDeliver
    rw [if_pos hd, hdc]
    refine ⟨inv.obj, inv.key, .inr ⟨hdn, .inl ⟨n, _, rfl, hk, rfl⟩⟩, ?_⟩
    rintro n' b' e'
    cases e'
    exact ⟨h1, h2⟩
  · have hd : p.dest = false := by rw [h1]; simp [hk]
    unfold secDeliver
    rw [hd, if_neg (by simp)]
    refine ⟨inv.obj, inv.key, ?_, ?_⟩
    · rcases inv.dc with h | ⟨hd, h⟩
      · exact .inl h
      · refine .inr ⟨hd, .inr ⟨?_, ?_⟩⟩
        · rintro n' b' e'; cases e'; exact hk
        · rcases h with ⟨_, _, h, hk', -⟩ | ⟨-, h⟩
          · cases h; exact absurd hk' hk
          · exact h
    · rintro n' b' e'
      cases e'
      exact ⟨h1, h2⟩

theorem secLoop_ok {κ : Type} (K : Skey κ) (hK : Sound K) {cur : Option (Bytes × Bytes)} {ps : List Push} {objs : List (Bytes × Bytes)}
    {e : Ending} (h : Stream cur ps objs e) : ∀ (p : Sec κ) (done : List Bytes), KInv K p cur done →
    (∀ q, secLoop K p ps = some q → e ≠ .malformed ∧ q.inobj = decide (e = .cut) ∧
      ((done ++ keys objs = [] ∧ q.key = none) ∨ ∃ d t, done ++ keys objs = [d] ∧ K.err d = 0 ∧ K.type d = some t ∧ q.keyType = t ∧ q.key = some (K.key d))) ∧
    (e = .whole → (∀ d, done ++ keys objs = [d] → K.err d = 0) → (done ++ keys objs).length ≤ 1 → secLoop K p ps ≠ none) := by
  have base : ∀ (p : Sec κ) (done : List Bytes) cur, KInv K p cur done →
      ((done ++ keys [] = [] ∧ p.key = none) ∨ ∃ d t, done ++ keys [] = [d] ∧ K.err d = 0 ∧ K.type d = some t ∧ p.keyType = t ∧ p.key = some (K.key d)) := by
    intro p done cur inv
    have : keys [] = [] := rfl
    rw [this, List.append_nil]
    rcases inv.key with h | ⟨d, t, h1, h2, h3, -, h4⟩
    · exact .inl h
    · exact .inr ⟨d, t, h1, h2, h3, h4⟩
  induction h with
  | done =>
    intro p done inv
    exact ⟨fun q hq => by cases hq; exact ⟨by nofun, inv.obj, base _ _ _ inv⟩, fun _ _ _ => by nofun⟩
  | cut =>
    intro p done inv
    exact ⟨fun q hq => by cases hq; exact ⟨by nofun, inv.obj, base _ _ _ inv⟩, by nofun⟩
  | @idle ps objs e _ ih =>
    intro p done inv
    have h0 : secLoop K p (⟨[], .none⟩ :: ps) = secLoop K (secDeliver p []) ps := rfl
    rw [h0]
    refine ih _ done ?_
    rw [secDeliver_nil]
    exact inv
  | @begin n ps objs e hst ih =>
    intro p done inv
    have h0 : secLoop K p (⟨[], .begin n⟩ :: ps) = match secBegin K p n with | none => none | some p => secLoop K p ps := by
      rw [secLoop, secDeliver_nil]; rfl
    rw [h0]
    have hobj : p.inobj = false := inv.obj
    unfold secBegin
    rw [hobj, if_neg (by simp)]
    by_cases hk : isKey n
    · rw [if_pos hk]
      rcases inv.dc with ⟨d, hd, hdc⟩ | ⟨hd, hdc⟩
      · obtain ⟨d', t, h1, h2, h3, -⟩ : ∃ d' t, done = [d'] ∧ K.err d' = 0 ∧ K.type d' = some t ∧ True := by
          rcases inv.key with ⟨h, -⟩ | ⟨d', t, h1, h2, h3, -⟩
          · rw [hd] at h; cases h
          · exact ⟨d', t, h1, h2, h3, trivial⟩
        have hdd : d = d' := by rw [hd] at h1; cases h1; rfl
        rw [hdc, hdd]
        simp only [Option.bind_some, h3, Option.isSome_some, if_true]
        refine ⟨by nofun, fun he _ hl => ?_⟩
        obtain ⟨b', objs', rfl⟩ := stream_in hst he
        rw [keys_cons, if_pos hk, hd] at hl
        simp at hl
      · rcases hdc with ⟨n', b', h1, -⟩ | ⟨-, hdc⟩
        · cases h1
        · rw [hdc]
          simp only [Option.bind_none, Option.isSome_none, Bool.false_eq_true, if_false]
          refine ih _ done ⟨rfl, ?_, .inr ⟨hd, .inl ⟨n, [], rfl, hk, rfl⟩⟩, ?_⟩
          · exact inv.key
          · rintro n' b' e'
            cases e'
            exact ⟨by simp [hk], fun _ => hd⟩
    · rw [if_neg hk]
      refine ih _ done ⟨rfl, inv.key, ?_, ?_⟩
      · rcases inv.dc with h | ⟨hd, h⟩
        · exact .inl h
        · refine .inr ⟨hd, .inr ⟨?_, ?_⟩⟩
          · rintro n' b' e'; cases e'; exact hk
          · rcases h with ⟨_, _, h, -⟩ | ⟨-, h⟩
            · cases h
            · exact h
      · rintro n' b' e'
        cases e'
        exact ⟨by simp [hk], fun h => absurd h hk⟩
  | @data n b cs ps objs e _ ih =>
    intro p done inv
    have h0 : secLoop K p (⟨cs, .none⟩ :: ps) = secLoop K (secDeliver p cs) ps := rfl
    rw [h0]
    exact ih _ done (kinv_deliver K p n b cs done inv)
  | @fin n b cs ps objs e _ ih =>
    intro p done inv
    have inv' := kinv_deliver K p n b cs done inv
    generalize hp : secDeliver p cs = p' at inv'
    have hobj : p'.inobj = true := inv'.obj
    by_cases hk : isKey n
    · have h0 : secLoop K p (⟨cs, .fin n⟩ :: ps) = match endKey K { p' with inobj := false } with | none => none | some p => secLoop K p ps := by
        rw [secLoop, hp]
        unfold secEvent
        simp only
        rw [hobj, if_neg (by simp), if_pos hk]
        cases endKey K { p' with inobj := false } <;> rfl
      rw [h0]
      have hd : done = [] := (inv'.here n _ rfl).2 hk
      have hdc : p'.keydc = some (b ++ cs.flatten) := by
        rcases inv'.dc with ⟨d, h, -⟩ | ⟨-, ⟨n', b', h1, -, h2⟩ | ⟨h, -⟩⟩
        · rw [hd] at h; cases h
        · cases h1; exact h2
        · exact absurd hk (h n _ rfl)
      unfold endKey
      simp only [hdc]
      by_cases herr : K.err (b ++ cs.flatten) = 0
      · rw [if_neg (by simp [herr])]
        obtain ⟨t, ht, ht2⟩ : ∃ t, K.type (b ++ cs.flatten) = some t ∧ (t = RSA ∨ t = EC) := by
          rcases hK _ herr with h | h
          · exact ⟨_, h, .inl rfl⟩
          · exact ⟨_, h, .inr rfl⟩
        rw [ht]
        simp only
        rw [if_pos ht2]
        simp only
        have := ih { p' with inobj := false, keyType := t, key := some (K.key (b ++ cs.flatten)) } [b ++ cs.flatten]
          ⟨rfl, .inr ⟨_, t, rfl, herr, ht, ht2, rfl, rfl⟩, .inl ⟨_, rfl, hdc⟩, by nofun⟩
        rw [keys_cons, if_pos hk, hd]
        simp only [hdc] at this
        exact this
      · rw [if_pos herr]
        refine ⟨by nofun, fun _ h1 h2 => ?_⟩
        rw [keys_cons, if_pos hk, hd] at h1 h2
        simp only [List.nil_append, List.length_cons] at h1 h2
        have : keys objs = [] := List.length_eq_zero_iff.mp (by omega)
        rw [this] at h1
        exact absurd (h1 _ rfl) herr
    · have h0 : secLoop K p (⟨cs, .fin n⟩ :: ps) = secLoop K { p' with inobj := false } ps := by
        rw [secLoop, hp]
        unfold secEvent
        simp only
        rw [hobj, if_neg (by simp), if_neg hk]
      rw [h0, keys_cons, if_neg hk]
      refine ih _ done ⟨rfl, inv'.key, ?_, by nofun⟩
      rcases inv'.dc with h | ⟨hd, h⟩
      · exact .inl h
      · refine .inr ⟨hd, .inr ⟨by nofun, ?_⟩⟩
        rcases h with ⟨_, _, h, hk', -⟩ | ⟨-, h⟩
        · cases h; exact absurd hk' hk
        · exact h
  | @error cur cs ps _ =>
    intro p done inv
    have h0 : secLoop K p (⟨cs, .error⟩ :: ps) = none := rfl
    rw [h0]
    exact ⟨by nofun, by nofun⟩

/-- C76. A private key is taken exactly from a complete bundle with exactly one private key, and it is that one;
certificates and everything else in the bundle do not matter. -/
theorem c76_key {κ : Type} (K : Skey κ) (hK : Sound K) (ps : List Push) (objs : List (Bytes × Bytes)) (e : Ending)
    (hs : Stream none ps objs e) (t : Nat) (k : κ) :
    tls_seccrt_parse K ps = some (t, k) ↔
      e = .whole ∧ ∃ d, keys objs = [d] ∧ K.err d = 0 ∧ K.type d = some t ∧ k = K.key d := by
  have inv : KInv K ⟨false, false, none, 0, none⟩ none [] :=
    ⟨rfl, .inl ⟨rfl, rfl⟩, .inr ⟨rfl, .inr ⟨by nofun, rfl⟩⟩, by nofun⟩
  obtain ⟨h1, h2⟩ := secLoop_ok K hK hs _ [] inv
  simp only [List.nil_append] at h1 h2
  unfold tls_seccrt_parse
  cases hl : secLoop K ⟨false, false, none, 0, none⟩ ps with
  | none =>
    simp only
    refine ⟨by nofun, ?_⟩
    rintro ⟨he, d, hd, hd2, -⟩
    refine absurd hl (h2 he (fun d' hd' => ?_) (by rw [hd]; simp))
    rw [hd] at hd'
    cases hd'
    exact hd2
  | some q =>
    obtain ⟨q1, q2, q3⟩ := h1 q hl
    simp only
    cases he : e with
    | malformed => exact absurd he q1
    | cut => rw [q2, he]; simp
    | whole =>
      rw [q2, he, if_neg (by decide)]
      rcases q3 with ⟨a1, a2⟩ | ⟨d, t', a1, a2, a3, a4, a5⟩
      · rw [a1, a2]; simp
      · rw [a1, a4, a5]
        simp only [Option.map_some, Option.some.injEq, Prod.mk.injEq, true_and, List.cons.injEq, and_true]
        constructor
        · rintro ⟨rfl, rfl⟩; exact ⟨d, rfl, a2, a3, rfl⟩
        · rintro ⟨d', rfl, -, b2, rfl⟩
          rw [a3] at b2
          cases b2
          exact ⟨rfl, rfl⟩

/-- Keys for the examples: the first byte is the type. -/
def sampleK : Skey Bytes where
  err d := if d.head? = some 1 ∨ d.head? = some 2 then 0 else 40
  type d := d.head?.bind fun b => if b = 1 ∨ b = 2 then some b.toNat else none
  key d := d

theorem sampleK_sound : Sound sampleK := by
  intro d h
  cases d with
  | nil => exact absurd h (by decide)
  | cons b t =>
    simp only [sampleK, List.head?_cons, Option.some.injEq] at h
    by_cases h1 : b = 1
    · subst h1; exact .inl rfl
    · by_cases h2 : b = 2
      · subst h2; exact .inr rfl
      · rw [if_neg (by simp [h1, h2])] at h; cases h

example : tls_seccrt_parse sampleK bundle = some (1, [1, 2]) := by decide +kernel
example : tls_seccrt_parse sampleK (bundle ++ [⟨[], .begin b!"EC PRIVATE KEY"⟩, ⟨[[1]], .fin b!"EC PRIVATE KEY"⟩]) = none := by decide +kernel
example : tls_seccrt_parse sampleK (bundle.drop 2) = none := by decide +kernel

end Crt
