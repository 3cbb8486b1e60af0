import Verif.Tcp.Spec
import Verif.Conn.Props
import Verif.Resolve.Props
import Verif.Resolve.TrustProps
import Verif.ConnInfo.Props
import Verif.Cmd.Props
import Verif.Relay.TcpProps
namespace Conn

/-! ### The connections tried -/

theorem win_tried (s : St) (fd : Nat) (ip : Bytes) (n : Nat) (hn : n ≤ maxip) : (win s fd ip n).st.tried = s.tried := by
  have : (copyip s fd ip n).1.tried = s.tried := by
    unfold copyip
    split
    · rfl
    · split
      · rfl
      · exact (copyLoop_ok _ n 0 s none (by omega)).2.2.2.2.1
  exact this

theorem resetLoop_tried : ∀ k i (s : St), (resetLoop s k i).tried = s.tried := by
  intro k
  induction k with
  | zero => intro i s; rfl
  | succ k ih => intro i s; rw [resetLoop, ih, closeslot_tried]

theorem closefd_tried (s : St) (fd : Nat) : (closefd s fd).tried = s.tried := by
  unfold closefd
  split
  · rfl
  · exact closeslot_tried _ _

theorem scan_tried (ip : Bytes) (n : Nat) (hn : n ≤ maxip) : ∀ p (s : St) ev r ev', scan ip n p s ev = some (r, ev') →
    (match r with | .inl d => d.st.tried | .inr s' => s'.tried) = s.tried := by
  intro p
  induction p with
  | nil =>
    intro s ev r ev' e
    simp only [scan, Option.some.injEq, Prod.mk.injEq] at e
    rw [← e.1]
  | cons x p ih =>
    intro s ev r ev' e
    obtain ⟨fd, b⟩ := x
    cases b with
    | false => exact ih s ev r ev' e
    | true =>
      match ev, e with
      | .isConnected b :: ev, e =>
        simp only [scan] at e
        cases b with
        | true =>
          simp only [if_true, Option.some.injEq, Prod.mk.injEq] at e
          rw [← e.1]
          exact win_tried _ _ _ _ hn
        | false =>
          simp only [Bool.false_eq_true, if_false] at e
          rw [ih _ _ _ _ e, closefd_tried]
      | [], e => simp [scan] at e
      | .socket _ :: _, e => simp [scan] at e
      | .dup _ :: _, e => simp [scan] at e
      | .connect _ :: _, e => simp [scan] at e
      | .poll _ _ :: _, e => simp [scan] at e
      | .time _ :: _, e => simp [scan] at e

theorem pollLoop_tried (ip : Bytes) (n : Nat) (hn : n ≤ maxip) (dl : Int) : ∀ fuel (s : St) ev d ev',
    pollLoop ip n dl fuel s ev = some (d, ev') → d.st.tried = s.tried := by
  intro fuel
  induction fuel with
  | zero => intro s ev d ev' e; simp [pollLoop] at e
  | succ fuel ih =>
    intro s ev d ev' e
    have hreset : (reset s).tried = s.tried := resetLoop_tried _ _ _
    unfold pollLoop at e
    split at e
    · simp only [Option.some.injEq, Prod.mk.injEq] at e
      rw [← e.1]; exact hreset
    · split at e
      · split at e
        · simp only [Option.some.injEq, Prod.mk.injEq] at e
          rw [← e.1]; exact hreset
        · split at e
          · split at e
            · cases e
            · split at e
              · exact ih _ _ _ _ e
              · simp only [Option.some.injEq, Prod.mk.injEq] at e
                rw [← e.1]; exact hreset
              · split at e
                · cases e
                · split at e
                  · cases e
                  · next h =>
                    have := scan_tried ip n hn _ _ _ _ _ h
                    simp only [Option.some.injEq, Prod.mk.injEq] at e
                    rw [← e.1]; exact this
                  · next h =>
                    have := scan_tried ip n hn _ _ _ _ _ h
                    rw [ih _ _ _ _ e]; exact this
          · cases e
      · cases e

/-- The candidates from number `i` to before `m` were tried after those of `s`. -/
def TriedTo (ip : Bytes) (n : Nat) (s : St) (i m : Nat) : Sum Done St → Prop
  | .inl d => i < m ∧ d.st.tried.reverse.map (·.2) = s.tried.reverse.map (·.2) ++ (List.range' i (m - i)).map (cand ip)
  | .inr s' => m = n ∧ s'.tried.reverse.map (·.2) = s.tried.reverse.map (·.2) ++ (List.range' i (m - i)).map (cand ip)

theorem connectLoop_tried (ip : Bytes) (n : Nat) (hn : n ≤ maxip) : ∀ k i (s : St) ev, k + i = n → (∀ j, i ≤ j → j < n → s.fds j ≠ none) →
    ∀ r ev', connectLoop ip n k i s ev = some (r, ev') →
    ∃ m, i ≤ m ∧ m ≤ n ∧ TriedTo ip n s i m r := by
  intro k
  induction k with
  | zero =>
    intro i s ev hk _ r ev' e
    simp only [connectLoop, Option.some.injEq, Prod.mk.injEq] at e
    rw [← e.1]
    exact ⟨i, Nat.le_refl _, by omega, by omega, by simp⟩
  | succ k ih =>
    intro i s ev hk hf r ev' e
    match ev, e with
    | .connect c :: ev, e =>
      simp only [connectLoop] at e
      split at e
      · next h => exact absurd h (hf i (Nat.le_refl _) (by omega))
      · next fd hfd =>
        have go : ∀ (s2 : St), s2.tried.reverse.map (·.2) = s.tried.reverse.map (·.2) ++ [cand ip i] →
            (∀ j, i + 1 ≤ j → j < n → s2.fds j ≠ none) → connectLoop ip n k (i + 1) s2 ev = some (r, ev') →
            ∃ m, i ≤ m ∧ m ≤ n ∧ TriedTo ip n s i m r := by
          intro s2 h1 h2 h3
          obtain ⟨m, m1, m2, h⟩ := ih (i + 1) s2 ev (by omega) h2 r ev' h3
          have hr : List.range' i (m - i) = i :: List.range' (i + 1) (m - (i + 1)) := by
            rw [show m - i = (m - (i + 1)) + 1 by omega, List.range'_succ]
          refine ⟨m, by omega, m2, ?_⟩
          cases r with
          | inl d => exact ⟨by omega, by rw [hr, h.2, h1]; simp⟩
          | inr s' => exact ⟨h.1, by rw [hr, h.2, h1]; simp⟩
        split at e
        · simp only [Option.some.injEq, Prod.mk.injEq] at e
          rw [← e.1]
          refine ⟨i + 1, by omega, by omega, by omega, ?_⟩
          rw [win_tried _ _ _ _ hn]
          simp [cand, show i + 1 - i = 1 by omega]
        · refine go _ ?_ ?_ e
          · simp [cand]
          · exact fun j h1 h2 => hf j (by omega) h2
        · refine go _ (by rw [closeslot_tried]; simp [cand]) ?_ e
          intro j h1 h2
          rw [closeslot_fds (by omega), upd_ne _ _ (by omega)]
          exact hf j (by omega) h2
    | [], e => simp [connectLoop] at e
    | .socket _ :: _, e => simp [connectLoop] at e
    | .dup _ :: _, e => simp [connectLoop] at e
    | .isConnected _ :: _, e => simp [connectLoop] at e
    | .poll _ _ :: _, e => simp [connectLoop] at e
    | .time _ :: _, e => simp [connectLoop] at e

/-- An attempt over prepared slots tries the candidates in their order, each at most once, and all of them before it
gives up. -/
theorem conn_tried (o : List Nat) (timeout : Int) (ip : Bytes) (n : Nat) (h1 : 1 ≤ n) (hn : n ≤ maxip)
    (s : St) (hs : Ready o n s) (ht : 1 ≤ timeout) (h0 : s.tried = []) (ev ev' : List Ev) (d : Done)
    (e : conn timeout ip (16 * n : Nat) s ev = some (d, ev')) :
    ∃ m, 1 ≤ m ∧ m ≤ n ∧ d.st.tried.reverse.map (·.2) = (List.range m).map (cand ip) ∧ (d.ret = .fail → m = n) := by
  have h8 : maxip = 8 := rfl
  match ev, e with
  | .time t0 :: ev, e =>
    unfold conn at e
    simp only [] at e
    rw [if_neg (by omega), show (min ((16 * n : Nat) : Int) ((maxip * 16 : Nat) : Int)).toNat / 16 = n by omega] at e
    rcases hc : connectLoop ip n n 0 s ev with _ | ⟨r, ev2⟩
    · rw [hc] at e; cases e
    · rw [hc] at e
      obtain ⟨m, _, m2, hm⟩ := connectLoop_tried ip n hn n 0 s ev (by omega) (fun j _ hj => (hs.full j hj).1) r ev2 hc
      cases r with
      | inl d2 =>
        simp only [Option.some.injEq, Prod.mk.injEq] at e
        have hw := connectLoop_ok hn ip n 0 s ev hs.run (by omega) (fun j fd hj => absurd hj (by omega)) _ ev2 hc
        obtain ⟨fd, d0, j, hw, -⟩ := hw
        rw [← e.1]
        exact ⟨m, hm.1, m2, by simpa [h0, ← List.range_eq_range'] using hm.2, fun hf => by rw [hw.ret] at hf; cases hf⟩
      | inr s2 =>
        have := pollLoop_tried ip n hn _ _ _ _ _ _ e
        have hmn : m = n := hm.1
        refine ⟨m, by omega, m2, ?_, fun _ => hmn⟩
        rw [this]
        simpa [h0, ← List.range_eq_range'] using hm.2
  | [], e => simp [conn] at e
  | .socket _ :: _, e => simp [conn] at e
  | .dup _ :: _, e => simp [conn] at e
  | .connect _ :: _, e => simp [conn] at e
  | .poll _ _ :: _, e => simp [conn] at e
  | .isConnected _ :: _, e => simp [conn] at e

end Conn

namespace Relay.Tcp

/-- The bytes prepended to the client's stream. -/
def headerOf (C : Proxy.IpCodec) (e : Proxy.Ends) (pp : Bool) : Bytes := if pp then Proxy.headerText C e else []

theorem relay_cases (C : Proxy.IpCodec) (alloc : Bool) (static imem omem : Bytes) (e : Proxy.Ends) (pp : Bool)
    (hs : 6 ≤ static.length) (hi : imem.length = 8192) (L R : Bytes) (evs : List Ev) :
    (pp = true ∧ (e = Proxy.zeroEnds ∨ alloc = false ∨ size < (Proxy.headerText C e).length) ∧ relay C alloc static imem omem e pp L R evs = .ok none) ∨
    (pp = true → e ≠ Proxy.zeroEnds) ∧ ∃ m n, m.length = 8192 ∧ n ≤ 8192 ∧ m.take n = headerOf C e pp ∧ n = (headerOf C e pp).length ∧
      relay C alloc static imem omem e pp L R evs = (do let r ← loop (start m omem n L R) evs; return some r) := by
  cases pp with
  | false => exact .inr ⟨by simp, imem, 0, hi, Nat.zero_le _, rfl, rfl, by simp [relay, prepare]⟩
  | true =>
    have hp := Proxy.c07_emit C alloc static imem size e hs (by simp [size, hi])
    by_cases hc : e = Proxy.zeroEnds ∨ alloc = false ∨ size < (Proxy.headerText C e).length
    · rw [if_pos hc] at hp
      exact .inl ⟨rfl, hc, by simp [relay, prepare, hp]⟩
    · rw [if_neg hc] at hp
      have hlen : (Proxy.headerText C e).length ≠ 0 := by simp [Proxy.headerText]
      have hle : (Proxy.headerText C e).length ≤ size := by omega
      refine .inr ⟨fun _ h => hc (.inl h), Proxy.headerText C e ++ imem.drop (Proxy.headerText C e).length, (Proxy.headerText C e).length,
        by simp [hi, size] at hle ⊢; omega, hle, by simp [headerOf], by simp [headerOf], ?_⟩
      simp only [relay, prepare, hp, if_true, Out.ok_bind, if_neg hlen, Out.pure_eq]

theorem body_signal (s : St) (ev : Ev) (s' : St) (e : body s ev = .ok (s', some .signal)) :
    ∃ r, ev.poll = some r ∧ r.selfpipe = true := by
  have h1 : ∀ s', doToRemote s ev ≠ .ok (s', some .signal) := by
    intro s' h
    unfold doToRemote at h
    split at h
    · cases hw : writeFrom s.inb ev.wr with
      | ub => rw [hw] at h; cases h
      | ok v =>
        obtain ⟨r, b⟩ := v
        rw [hw] at h
        cases r <;> simp at h
    · simp at h
  have h2 : ∀ s', doToLocal s ev ≠ .ok (s', some .signal) := by
    intro s' h
    unfold doToLocal at h
    cases hw : writeFrom s.outb ev.wr with
    | ub => rw [hw] at h; cases h
    | ok v =>
      obtain ⟨r, b⟩ := v
      rw [hw] at h
      cases r <;> simp at h
  have h3 : ∀ s', doFromLocal s ev ≠ .ok (s', some .signal) := by
    intro s' h
    unfold doFromLocal at h
    cases hw : readInto size s.inb s.lsrc ev.rd with
    | ub => rw [hw] at h; cases h
    | ok v =>
      obtain ⟨r, b, src⟩ := v
      rw [hw] at h
      cases r <;> simp at h
  have h4 : ∀ s', doFromRemote s ev ≠ .ok (s', some .signal) := by
    intro s' h
    unfold doFromRemote at h
    cases hw : readInto size s.outb s.rsrc ev.rd with
    | ub => rw [hw] at h; cases h
    | ok v =>
      obtain ⟨r, b, src⟩ := v
      rw [hw] at h
      cases r <;> simp at h
  unfold body at e
  simp only [] at e
  split at e
  · exact absurd e (h1 s')
  · split at e
    · exact absurd e (h2 s')
    · split at e
      · exact absurd e (h3 s')
      · split at e
        · exact absurd e (h4 s')
        · split at e
          · next h =>
            cases hp : ev.poll with
            | none => rw [hp] at h; simp [after] at h
            | some r => rw [hp] at h; exact ⟨r, rfl, by simpa [after, watches] using h⟩
          · cases e

theorem loop_signal (evs : List Ev) : ∀ (s s' : St), loop s evs = .ok (s', some .signal) →
    ∃ ev ∈ evs, ∃ r, ev.poll = some r ∧ r.selfpipe = true := by
  induction evs with
  | nil =>
    intro s s' e
    simp only [loop] at e
    split at e <;> cases e
  | cons ev evs ih =>
    intro s s' e
    simp only [loop] at e
    split at e
    · cases e
    · cases hb : body (propagate s) ev with
      | ub => rw [hb] at e; cases e
      | ok v =>
        obtain ⟨s2, why⟩ := v
        rw [hb] at e
        cases why with
        | none =>
          obtain ⟨x, hx, h⟩ := ih s2 s' e
          exact ⟨x, by simp [hx], h⟩
        | some y =>
          simp only [Out.ok_bind, Out.pure_eq, Out.ok.injEq, Prod.mk.injEq, Option.some.injEq] at e
          obtain ⟨-, rfl⟩ := e
          exact ⟨ev, by simp, body_signal _ _ _ hb⟩

/-- The close calls after the loop. -/
theorem closing_log (s : St) : ∃ l, (closeRemoteout (closeRemotein s)).log = s.log ++ l ∧
    ∀ a ∈ l, a = .close .remotein ∨ a = .close .remoteout := by
  obtain ⟨l1, h1, k1⟩ : ∃ l, (closeRemotein s).log = s.log ++ l ∧ ∀ a ∈ l, a = .close .remotein ∨ a = .close .remoteout := by
    unfold closeRemotein
    split
    · exact ⟨_, rfl, by simp⟩
    · exact ⟨[], by simp, by simp⟩
  obtain ⟨l2, h2, k2⟩ : ∃ l, (closeRemoteout (closeRemotein s)).log = (closeRemotein s).log ++ l ∧
      ∀ a ∈ l, a = .close .remotein ∨ a = .close .remoteout := by
    generalize closeRemotein s = t
    unfold closeRemoteout
    split
    · exact ⟨_, rfl, by simp⟩
    · exact ⟨[], by simp, by simp⟩
  refine ⟨l1 ++ l2, by rw [h2, h1, List.append_assoc], ?_⟩
  intro a ha
  rcases List.mem_append.mp ha with h | h
  · exact k1 a h
  · exact k2 a h

theorem closing_io (l : List (Act Fd)) (h : ∀ a ∈ l, a = .close .remotein ∨ a = .close .remoteout) (f : Fd) :
    readOf f l = [] ∧ wroteOf f l = [] := by
  induction l with
  | nil => exact ⟨rfl, rfl⟩
  | cons a l ih =>
    obtain ⟨h1, h2⟩ := ih (fun x hx => h x (by simp [hx]))
    rcases h a (by simp) with rfl | rfl <;> exact ⟨h1, h2⟩

end Relay.Tcp

namespace TcpMain
open Conf.Spec (Opt values last)

theorem blocks_wanted {as : List Resolve.Answer} (hok : ∀ a ∈ as, a.Ok) {bs : List Bytes} {m : Nat}
    (p : bs.Perm (Resolve.wanted as m)) : Resolve.Blocks bs := by
  intro b hb
  have : b ∈ as.filterMap Resolve.Answer.addr := List.mem_of_mem_take (p.mem_iff.1 hb)
  obtain ⟨a, ha, e⟩ := List.mem_filterMap.1 this
  have hk := hok a ha
  cases a with
  | v4 x =>
    simp only [Resolve.Answer.addr, Option.some.injEq] at e
    subst e
    simp only [Resolve.Answer.Ok] at hk
    simp [hk]
  | v6 x =>
    simp only [Resolve.Answer.addr, Option.some.injEq] at e
    subst e
    exact hk
  | other => simp [Resolve.Answer.addr] at e

/-- What the program knows of the host: nothing, or the addresses of the resolver's answer. -/
theorem lookup_ok {w : World} (hw : Sound w) (host : Bytes) (hn : NoNul host) :
    ∃ r ip, lookup w host = .ok (r, ip) ∧
      (r ≤ 0 ∨ ∃ as bs, w.gai host = .list as ∧ bs.Perm (Resolve.wanted as 8) ∧ Resolve.Blocks bs ∧ bs ≠ [] ∧ bs.length ≤ 8 ∧
        r = ((16 * bs.length : Nat) : Int) ∧ ip.length = 128 ∧ ip.take (16 * bs.length) = bs.flatten) := by
  have len8 : ∀ (as : List Resolve.Answer) (bs : List Bytes), bs.Perm (Resolve.wanted as 8) → bs.length ≤ 8 := by
    intro as bs p
    rw [p.length_eq]
    simp only [Resolve.wanted, List.length_take]
    omega
  unfold lookup
  by_cases hj : w.nojail = true
  · rw [if_pos hj]
    cases hg : w.gai host with
    | fail nd =>
      obtain ⟨r, e, h, -⟩ := Resolve.c34_failure (List.replicate 128 0) 128 (.fail nd) w.rnd (.inr ⟨nd, rfl⟩)
      exact ⟨r, _, e, .inl (by omega)⟩
    | list as =>
      obtain ⟨bs, ip', e, p, l, t, -⟩ := Resolve.c34_resolve (List.replicate 128 0) as (hw.gai host as hg) (by simp) (by simp) w.rnd
      simp only [List.length_replicate] at e p l
      refine ⟨_, _, e, ?_⟩
      by_cases hb : bs = []
      · left; subst hb; simp
      · exact .inr ⟨as, bs, rfl, p, blocks_wanted (hw.gai host as hg) p, hb, len8 as bs p, by simp, l, t⟩
  · rw [if_neg hj]
    have hc : host ++ [0] = cstr host [] := rfl
    rw [hc]
    by_cases hl : 255 < host.length
    · exact ⟨-1, _, Resolve.c34_long_name _ host [] 128 hn hl _, .inl (by omega)⟩
    · by_cases ho : w.lost = true
      · refine ⟨-1, List.replicate 128 0, ?_, .inl (by omega)⟩
        unfold Resolve.resolvehostDo
        rw [if_neg (by omega), Resolve.c34_request host [] hn, if_neg (by omega)]
        simp [ho, Resolve.answer]
      · simp only [ho, Bool.false_eq_true, if_false]
        cases hg : w.gai host with
        | fail nd =>
          have e := Resolve.c34_end_to_end_failure (List.replicate 128 0) host [] w.buf0 w.ip0 hn (by omega) hw.buf0 w.gai nd hg w.rnd (by simp)
          simp only [List.length_replicate] at e
          exact ⟨_, _, e, .inl (by split <;> omega)⟩
        | list as =>
          obtain ⟨bs, ip', e, p, -, l, t⟩ := Resolve.c34_end_to_end (List.replicate 128 0) host [] w.buf0 w.ip0 hn (by omega) hw.buf0 hw.ip0
            w.gai as hg (hw.gai host as hg) w.rnd (by simp)
          simp only [List.length_replicate] at e l t
          have h8 := len8 as bs p
          have hB := blocks_wanted (hw.gai host as hg) p
          have hbl := hB.length
          rw [Nat.min_eq_left (by omega)] at e t
          refine ⟨_, _, e, ?_⟩
          by_cases hb : bs = []
          · left; subst hb; simp
          · exact .inr ⟨as, bs, rfl, p, hB, hb, h8, rfl, l, by rw [t]; exact List.take_of_length_le (by omega)⟩

theorem logLoop_defined (ip : Bytes) (hip : ip.length = 128) (n : Nat) (hn : n ≤ 8) : ∀ k i,
    ∃ us, Resolve.logLoop ip ((16 * n : Nat) : Int) k (16 * i) = .ok us := by
  intro k
  induction k with
  | zero => intro i; exact ⟨[], rfl⟩
  | succ k ih =>
    intro i
    unfold Resolve.logLoop
    split
    · obtain ⟨us, e⟩ := ih (i + 1)
      have e' : Resolve.logLoop ip ((16 * n : Nat) : Int) k (16 * i + 16) = .ok us := e
      rw [Resolve.addrAt, if_pos (by omega)]
      simp only [Out.ok_bind]
      rw [e']
      exact ⟨_, rfl⟩
    · exact ⟨[], rfl⟩

theorem cand_block {ip : Bytes} {bs : List Bytes} (hB : Resolve.Blocks bs) (ht : ip.take (16 * bs.length) = bs.flatten) (m : Nat)
    (hm : m ≤ bs.length) : (List.range m).map (Conn.cand ip) = bs.take m := by
  apply List.ext_getElem?
  intro i
  by_cases hi : i < m
  · rw [List.getElem?_map, List.getElem?_range hi, List.getElem?_take_of_lt hi]
    have hib : i < bs.length := by omega
    rw [List.getElem?_eq_getElem hib]
    simp only [Option.map_some, Option.some.injEq]
    have h1 : Conn.cand ip i = (bs.flatten.drop (16 * i)).take 16 := by
      unfold Conn.cand
      rw [← ht, List.drop_take, List.take_take, Nat.min_eq_left (by omega)]
    rw [h1, hB.drop]
    rw [List.drop_eq_getElem_cons hib, List.flatten_cons, List.take_append_of_le_length (by rw [hB _ (List.getElem_mem hib)]; omega),
      List.take_of_length_le (by rw [hB _ (List.getElem_mem hib)]; omega)]
  · rw [List.getElem?_eq_none (by simp; omega), List.getElem?_eq_none (by rw [List.length_take]; omega)]

end TcpMain
