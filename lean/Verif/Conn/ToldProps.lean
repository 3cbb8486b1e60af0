import Verif.Conn.Told
/-
C110: what the log says about the candidates of an attempt to connect.
-/
namespace Conn

theorem say_snd {α} (l : Line) (r : Option (List Line × α)) : (say l r).map (·.2) = r.map (·.2) := by
  cases r <;> rfl

theorem connectTold_erase (ip : Bytes) (n : Nat) : ∀ k i s ev, (connectTold ip n k i s ev).map (·.2) = connectLoop ip n k i s ev := by
  intro k
  induction k with
  | zero => intros; rfl
  | succ k ih =>
    intro i s ev
    rcases ev with _ | ⟨e, ev⟩
    · rfl
    · cases e <;> try rfl
      rename_i r
      rw [connectTold, connectLoop]
      cases s.fds i with
      | none =>
        simp only
        split
        · rw [say_snd, ih]
        · rfl
      | some fd =>
        simp only
        cases r with
        | connected => rfl
        | inProgress => exact ih _ _ _
        | failed => simp only; rw [say_snd, ih]

theorem scanTold_erase (ip : Bytes) (n : Nat) : ∀ p s ev, (scanTold ip n p s ev).map (·.2) = scan ip n p s ev := by
  intro p
  induction p with
  | nil => intros; rfl
  | cons q p ih =>
    intro s ev
    obtain ⟨fd, b⟩ := q
    cases b with
    | false => rw [scanTold, scan]; exact ih s ev
    | true =>
      rcases ev with _ | ⟨e, ev⟩
      · rfl
      · cases e <;> try rfl
        rename_i b
        rw [scanTold, scan]
        cases b with
        | true => rfl
        | false => simp only [Bool.false_eq_true, if_false]; rw [say_snd, ih]

theorem pollTold_erase (ip : Bytes) (n : Nat) (dl : Int) : ∀ fuel s ev, (pollTold ip n dl fuel s ev).map (·.2) = pollLoop ip n dl fuel s ev := by
  intro fuel
  induction fuel with
  | zero => intros; rfl
  | succ fuel ih =>
    intro s ev
    unfold pollTold pollLoop
    split
    · rfl
    · rcases ev with _ | ⟨e, ev⟩
      · rfl
      · cases e <;> try rfl
        simp only
        split
        · rfl
        · rcases ev with _ | ⟨e, ev⟩
          · rfl
          · cases e <;> try rfl
            rename_i tm r
            simp only
            split
            · rfl
            · cases r with
              | eintr => exact ih s ev
              | failed => rfl
              | ready rev =>
                simp only
                split
                · rfl
                · rw [← scanTold_erase]
                  cases scanTold ip n ((pending s n).zip rev) s ev with
                  | none => rfl
                  | some x =>
                    obtain ⟨l, r, ev2⟩ := x
                    cases r with
                    | inl d => rfl
                    | inr s2 =>
                      simp only [Option.map_some, Option.map_map]
                      rw [← ih]
                      rfl

/-- Apart from its log the attempt is that of C62 and C68. -/
theorem connTold_erase (timeout : Int) (ip : Bytes) (iplen : Int) (s : St) (ev : List Ev) :
    (connTold timeout ip iplen s ev).map (·.2) = conn timeout ip iplen s ev := by
  rcases ev with _ | ⟨e, ev⟩
  · rfl
  · cases e <;> try rfl
    unfold connTold conn
    simp only
    split
    · rfl
    · rw [← connectTold_erase]
      cases connectTold ip ((min iplen ((maxip * 16 : Nat) : Int)).toNat / 16) ((min iplen ((maxip * 16 : Nat) : Int)).toNat / 16) 0 s ev with
      | none => rfl
      | some x =>
        obtain ⟨l, r, ev2⟩ := x
        cases r with
        | inl d => rfl
        | inr s2 =>
          simp only [Option.map_some, Option.map_map]
          rw [← pollTold_erase]
          rfl

/-- The answers that say that a candidate cannot be reached. -/
def refusals : List Ev → Nat
  | [] => 0
  | .connect .failed :: ev => refusals ev + 1
  | .isConnected false :: ev => refusals ev + 1
  | _ :: ev => refusals ev

/-- One warning for each of the candidates `js`, in that order, each with the candidate's own address. -/
def warnings (ip : Bytes) (js : List Nat) : List Line := js.map (fun j => .unable (some (cand ip j)))

/-- The log of an attempt that ended with candidate `j` connected, after the candidates `js` were refused. -/
structure WonLog (ip : Bytes) (n : Nat) (js : List Nat) (j : Nat) (l : List Line) (d : Done) (ev ev' : List Ev) : Prop where
  log : l = warnings ip js ++ [.connected (some (cand ip j))]
  other : j ∉ js
  slot : j < n
  ok : d.ret ≠ .fail
  ip : d.ip = cand ip j ++ ip.drop 16
  cause : js.length + refusals ev' = refusals ev

theorem win_is {o : List Nat} {n : Nat} {s : St} (h : Run o n s) {fd i : Nat} (hi : s.fds i = some fd) (hn : i < n) (ip : Bytes) :
    (win s fd ip n).ret ≠ .fail ∧ (win s fd ip n).ip = cand ip i ++ ip.drop 16 := by
  unfold win copyip
  rw [h.inv.findslot hi]
  simp only
  rw [if_neg (by omega)]
  exact ⟨by simp, rfl⟩

theorem Run.below {o : List Nat} {n : Nat} {s : St} (h : Run o n s) {i fd : Nat} (hi : s.fds i = some fd) : i < n := by
  by_cases hc : i < n
  · exact hc
  · rw [(h.empty i (by omega)).1] at hi; cases hi

theorem getip_is {o : List Nat} {n : Nat} {s : St} (h : Run o n s) {fd i : Nat} (hi : s.fds i = some fd) (ip : Bytes) :
    getip s fd ip n = some (cand ip i) := by
  unfold getip
  rw [h.inv.findslot hi]
  simp only
  rw [if_neg (by have := h.below hi; omega)]
  rfl

theorem say_some {α} {l : Line} {r : Option (List Line × α)} {L : List Line} {a : α} (h : say l r = some (L, a)) :
    ∃ L', r = some (L', a) ∧ L = l :: L' := by
  cases r with
  | none => cases h
  | some q =>
    obtain ⟨L', b⟩ := q
    simp only [say, Option.map_some, Option.some.injEq, Prod.mk.injEq] at h
    obtain ⟨rfl, rfl⟩ := h
    exact ⟨L', rfl, rfl⟩

/-- The connects for the slots from `i` on were issued in state `s`, and the candidates `js` refused. -/
def AfterConnects (o : List Nat) (n : Nat) (ip : Bytes) (i : Nat) (s : St) (js : List Nat) (L : List Line) (r : Sum Done St)
    (ev ev' : List Ev) : Prop :=
  match r with
  | .inl d => ∃ j, i ≤ j ∧ WonLog ip n js j L d ev ev'
  | .inr s' => L = warnings ip js ∧ Run o n s' ∧ js.length + refusals ev' = refusals ev ∧
      (∀ j, i ≤ j → j < n → (s'.fds j = none ↔ j ∈ js)) ∧ ∀ j, j < i → s'.fds j = s.fds j

theorem connectTold_ok {o : List Nat} {n : Nat} (hn : n ≤ maxip) (ip : Bytes) : ∀ k i (s : St) ev, Run o n s → k + i = n →
    ∀ L r ev', connectTold ip n k i s ev = some (L, r, ev') →
    ∃ js : List Nat, js.Nodup ∧ (∀ j ∈ js, i ≤ j ∧ j < n) ∧
    AfterConnects o n ip i s js L r ev ev' := by
  intro k
  induction k with
  | zero =>
    intro i s ev h hk L r ev' e
    simp only [connectTold, Option.some.injEq, Prod.mk.injEq] at e
    obtain ⟨rfl, rfl, rfl⟩ := e
    exact ⟨[], by simp, by simp, rfl, h, by simp, fun j h1 h2 => absurd h1 (by omega), fun _ _ => rfl⟩
  | succ k ih =>
    intro i s ev h hk L r ev' e
    have failed : ∀ (s1 : St) ev1, Run o n s1 → s1.fds = s.fds →
        say (.unable (some ((ip.drop (16 * i)).take 16))) (connectTold ip n k (i + 1) (closeslot s1 i) ev1) = some (L, r, ev') →
        refusals ev = refusals ev1 + 1 →
        ∃ js : List Nat, js.Nodup ∧ (∀ j ∈ js, i ≤ j ∧ j < n) ∧
        AfterConnects o n ip i s js L r ev ev' := by
      intro s1 ev1 h1 hf e1 hr
      obtain ⟨L', e2, rfl⟩ := say_some e1
      obtain ⟨js, hnd, hb, hm⟩ := ih (i + 1) _ _ (run_closeslot h1 i) (by omega) _ _ _ e2
      refine ⟨i :: js, List.nodup_cons.2 ⟨fun hc => ?_, hnd⟩, ?_, ?_⟩
      · have := (hb i hc).1; omega
      · intro j hj
        rcases List.mem_cons.1 hj with rfl | hj
        · exact ⟨Nat.le_refl _, by omega⟩
        · have := hb j hj; exact ⟨by omega, this.2⟩
      · cases r with
        | inl d =>
          obtain ⟨j, hij, w⟩ := hm
          refine ⟨j, by omega, ?_, ?_, w.slot, w.ok, w.ip, ?_⟩
          · rw [w.log]; rfl
          · intro hc
            rcases List.mem_cons.1 hc with rfl | hc
            · omega
            · exact w.other hc
          · have := w.cause; rw [List.length_cons]; omega
        | inr s' =>
          obtain ⟨h2, h3, h4, h5, h6⟩ := hm
          refine ⟨by rw [h2]; rfl, h3, by rw [List.length_cons]; omega, ?_, ?_⟩
          · intro j hij hjn
            by_cases he : j = i
            · subst he
              have : s'.fds j = none := by rw [h6 j (by omega), closeslot_fds (by omega), upd_self]
              simp [this]
            · rw [h5 j (by omega) hjn, List.mem_cons]; simp [he]
          · intro j hj
            rw [h6 j (by omega), closeslot_fds (by omega), upd_ne _ _ (by omega), hf]
    match ev, e, failed with
    | .connect c :: ev, e, failed =>
      rw [connectTold] at e
      cases hf : s.fds i with
      | none =>
        rw [hf] at e
        simp only [] at e
        by_cases hc : c = .failed
        · subst hc
          rw [if_pos rfl] at e
          exact failed s ev h rfl e rfl
        · rw [if_neg hc] at e; cases e
      | some fd =>
        rw [hf] at e
        simp only [] at e
        cases c with
        | connected =>
          simp only [if_pos, Option.some.injEq, Prod.mk.injEq] at e
          obtain ⟨rfl, rfl, rfl⟩ := e
          have hr := run_log h ((fd, (ip.drop (16 * i)).take 16) :: s.tried) (fd :: s.success)
          obtain ⟨w1, w2⟩ := win_is hr (i := i) hf (by omega) ip
          exact ⟨[], by simp, by simp, i, Nat.le_refl _, rfl, by simp, by omega, w1, w2, by simp [refusals]⟩
        | inProgress =>
          simp only [reduceCtorEq, if_false] at e
          have hr := run_log h ((fd, (ip.drop (16 * i)).take 16) :: s.tried) s.success
          obtain ⟨js, hnd, hb, hm⟩ := ih (i + 1) _ _ hr (by omega) _ _ _ e
          refine ⟨js, hnd, fun j hj => ⟨by have := hb j hj; omega, (hb j hj).2⟩, ?_⟩
          cases r with
          | inl d =>
            obtain ⟨j, hij, w⟩ := hm
            exact ⟨j, by omega, w.log, w.other, w.slot, w.ok, w.ip, w.cause⟩
          | inr s' =>
            obtain ⟨h2, h3, h4, h5, h6⟩ := hm
            refine ⟨h2, h3, h4, ?_, fun j hj => h6 j (by omega)⟩
            intro j hij hjn
            by_cases he : j = i
            · subst he
              rw [h6 j (by omega)]
              simp only [hf]
              constructor
              · intro hc; cases hc
              · intro hc; have := (hb j hc).1; omega
            · exact h5 j (by omega) hjn
        | failed =>
          simp only [reduceCtorEq, if_false] at e
          exact failed _ ev (run_log h ((fd, (ip.drop (16 * i)).take 16) :: s.tried) s.success) rfl e rfl
    | [], e, _ => simp [connectTold] at e
    | .socket _ :: _, e, _ => simp [connectTold] at e
    | .dup _ :: _, e, _ => simp [connectTold] at e
    | .time _ :: _, e, _ => simp [connectTold] at e
    | .poll _ _ :: _, e, _ => simp [connectTold] at e
    | .isConnected _ :: _, e, _ => simp [connectTold] at e

theorem scanTold_ok {o : List Nat} {n : Nat} (hn : n ≤ maxip) (ip : Bytes) : ∀ (p : List (Nat × Bool)) (s : St) ev, Run o n s →
    (p.map (·.1)).Nodup → (∀ q ∈ p, ∃ j, s.fds j = some q.1) → ∀ L r ev', scanTold ip n p s ev = some (L, r, ev') →
    ∃ js : List Nat, js.Nodup ∧ (∀ j ∈ js, s.fds j ≠ none) ∧
    match r with
    | .inl d => ∃ j, s.fds j ≠ none ∧ WonLog ip n js j L d ev ev'
    | .inr s' => L = warnings ip js ∧ Run o n s' ∧ js.length + refusals ev' = refusals ev ∧
        ∀ j, (s'.fds j = none ↔ s.fds j = none ∨ j ∈ js) := by
  intro p
  induction p with
  | nil =>
    intro s ev h _ _ L r ev' e
    simp only [scanTold, Option.some.injEq, Prod.mk.injEq] at e
    obtain ⟨rfl, rfl, rfl⟩ := e
    exact ⟨[], by simp, by simp, rfl, h, by simp, by simp⟩
  | cons q p ih =>
    intro s ev h hnd hin L r ev' e
    obtain ⟨fd, b⟩ := q
    simp only [List.map_cons, List.nodup_cons] at hnd
    cases b with
    | false =>
      rw [scanTold] at e
      exact ih s ev h hnd.2 (fun q hq => hin q (List.mem_cons_of_mem _ hq)) L r ev' e
    | true =>
      obtain ⟨j, hj⟩ := hin (fd, true) List.mem_cons_self
      simp only [] at hj
      have hjn := h.below hj
      match ev, e with
      | .isConnected b :: ev, e =>
        rw [scanTold] at e
        cases b with
        | true =>
          simp only [if_pos, Option.some.injEq, Prod.mk.injEq] at e
          obtain ⟨rfl, rfl, rfl⟩ := e
          have hr := run_log h s.tried (fd :: s.success)
          obtain ⟨w1, w2⟩ := win_is hr (i := j) hj hjn ip
          refine ⟨[], by simp, by simp, j, by rw [hj]; simp, ?_, by simp, hjn, w1, w2, by simp [refusals]⟩
          rw [getip_is hr (i := j) hj ip]
          rfl
        | false =>
          simp only [Bool.false_eq_true, if_false] at e
          have hcf : closefd { s with success := s.success } fd = closeslot s j := by
            unfold closefd
            rw [h.inv.findslot hj]
          rw [hcf] at e
          have hg : getip { s with success := s.success } fd ip n = some (cand ip j) := getip_is h hj ip
          rw [hg] at e
          have hjm : j < maxip := by omega
          obtain ⟨L', e2, rfl⟩ := say_some e
          obtain ⟨js, hnd2, hb, hm⟩ := ih (closeslot s j) ev (run_closeslot h j) hnd.2 (by
              intro q hq
              obtain ⟨a, ha⟩ := hin q (List.mem_cons_of_mem _ hq)
              refine ⟨a, ?_⟩
              rw [closeslot_fds hjm, upd_ne]
              · exact ha
              · intro he
                subst he
                rw [hj] at ha
                exact hnd.1 (List.mem_map.2 ⟨q, hq, (Option.some.inj ha).symm⟩)) _ _ _ e2
          have hjs : ∀ a, (closeslot s j).fds a ≠ none → a ≠ j ∧ s.fds a ≠ none := by
            intro a ha
            rw [closeslot_fds hjm] at ha
            by_cases he : a = j
            · subst he; rw [upd_self] at ha; exact absurd rfl ha
            · rw [upd_ne _ _ he] at ha; exact ⟨he, ha⟩
          refine ⟨j :: js, List.nodup_cons.2 ⟨fun hc => (hjs j (hb j hc)).1 rfl, hnd2⟩, ?_, ?_⟩
          · intro a ha
            rcases List.mem_cons.1 ha with rfl | ha
            · rw [hj]; simp
            · exact (hjs a (hb a ha)).2
          · cases r with
            | inl d =>
              obtain ⟨a, ha, w⟩ := hm
              refine ⟨a, (hjs a ha).2, ?_, ?_, w.slot, w.ok, w.ip, ?_⟩
              · rw [w.log]; rfl
              · intro hc
                rcases List.mem_cons.1 hc with rfl | hc
                · exact (hjs a ha).1 rfl
                · exact w.other hc
              · have := w.cause; rw [List.length_cons]; simp only [refusals]; omega
            | inr s' =>
              obtain ⟨h2, h3, h4, h5⟩ := hm
              refine ⟨by rw [h2]; rfl, h3, by rw [List.length_cons]; simp only [refusals]; omega, ?_⟩
              intro a
              rw [h5, closeslot_fds hjm, List.mem_cons]
              by_cases he : a = j
              · subst he; rw [upd_self]; simp
              · rw [upd_ne _ _ he]; simp [he]
      | [], e => simp [scanTold] at e
      | .socket _ :: _, e => simp [scanTold] at e
      | .dup _ :: _, e => simp [scanTold] at e
      | .time _ :: _, e => simp [scanTold] at e
      | .poll _ _ :: _, e => simp [scanTold] at e
      | .connect _ :: _, e => simp [scanTold] at e

theorem scanTold_sub (ip : Bytes) (n : Nat) : ∀ (p : List (Nat × Bool)) (s : St) ev {L r ev'}, scanTold ip n p s ev = some (L, r, ev') →
    ∀ x ∈ ev', x ∈ ev := by
  intro p
  induction p with
  | nil =>
    intro s ev L r ev' e x hx
    simp only [scanTold, Option.some.injEq, Prod.mk.injEq] at e
    rw [e.2.2]; exact hx
  | cons q p ih =>
    intro s ev L r ev' e x hx
    obtain ⟨fd, b⟩ := q
    cases b with
    | false => rw [scanTold] at e; exact ih s ev e x hx
    | true =>
      rcases ev with _ | ⟨v, ev⟩
      · simp [scanTold] at e
      · cases v <;> try (simp [scanTold] at e; done)
        rename_i b
        rw [scanTold] at e
        cases b with
        | true =>
          simp only [if_pos, Option.some.injEq, Prod.mk.injEq] at e
          rw [← e.2.2] at hx
          exact List.mem_cons_of_mem _ hx
        | false =>
          simp only [Bool.false_eq_true, if_false] at e
          obtain ⟨L', e2, _⟩ := say_some e
          exact List.mem_cons_of_mem _ (ih _ _ e2 x hx)

/-- The log of an attempt that failed after `js` were named. -/
structure LostLog (ip : Bytes) (js : List Nat) (l : List Line) (d : Done) : Prop where
  log : l = warnings ip js
  fail : d.ret = .fail
  ip : d.ip = ip

theorem pending_warned {o : List Nat} {n : Nat} {s : St} (h : Run o n s) (ip : Bytes) (l : List Nat) (hl : ∀ j ∈ l, j < n) :
    (l.filterMap s.fds).map (fun fd => Line.unable (getip s fd ip n)) = warnings ip (l.filter (fun j => (s.fds j).isSome)) := by
  induction l with
  | nil => rfl
  | cons j l ih =>
    have ih := ih (fun a ha => hl a (List.mem_cons_of_mem _ ha))
    cases hj : s.fds j with
    | none =>
      rw [List.filterMap_cons_none hj, List.filter_cons_of_neg (by simp [hj])]
      exact ih
    | some fd =>
      rw [List.filterMap_cons_some hj, List.filter_cons_of_pos (by simp [hj]), List.map_cons, ih, getip_is h hj ip]
      rfl

theorem pending_empty {s : St} {n : Nat} (h : pending s n = []) {j : Nat} (hj : j < n) : s.fds j = none := by
  unfold pending at h
  rw [List.filterMap_eq_nil_iff] at h
  exact h j (List.mem_range.2 hj)

theorem pollTold_ok {o : List Nat} {n : Nat} (hn : n ≤ maxip) (ip : Bytes) (deadline : Int) : ∀ fuel (s : St) ev, Run o n s →
    ∀ L d ev', pollTold ip n deadline fuel s ev = some (L, d, ev') →
    ∃ js : List Nat, js.Nodup ∧ (∀ j ∈ js, s.fds j ≠ none) ∧
    ((∃ j, s.fds j ≠ none ∧ WonLog ip n js j L d ev ev') ∨
     (LostLog ip js L d ∧ ((∃ tm, Ev.poll tm .failed ∈ ev) ∨ ∀ j, s.fds j ≠ none → j ∈ js))) := by
  intro fuel
  induction fuel with
  | zero => intro s ev _ L d ev' e; simp [pollTold] at e
  | succ fuel ih =>
    intro s ev h L d ev' e
    unfold pollTold at e
    by_cases hp : pending s n = []
    · rw [if_pos hp] at e
      simp only [Option.some.injEq, Prod.mk.injEq] at e
      obtain ⟨rfl, rfl, rfl⟩ := e
      refine ⟨[], by simp, by simp, .inr ⟨⟨rfl, rfl, rfl⟩, .inr ?_⟩⟩
      intro j hj
      by_cases hjn : j < n
      · exact absurd (pending_empty hp hjn) hj
      · exact absurd (h.empty j (by omega)).1 hj
    · rw [if_neg hp] at e
      match ev, e with
      | .time t :: ev, e =>
        simp only [] at e
        by_cases hd : deadline - t ≤ 0
        · rw [if_pos hd] at e
          simp only [Option.some.injEq, Prod.mk.injEq] at e
          obtain ⟨rfl, rfl, rfl⟩ := e
          refine ⟨(List.range n).filter (fun j => (s.fds j).isSome), List.nodup_range.filter _, ?_, .inr ⟨⟨?_, rfl, rfl⟩, .inr ?_⟩⟩
          · intro j hj hc
            have := (List.mem_filter.1 hj).2
            rw [hc] at this; cases this
          · exact pending_warned h ip _ (fun j hj => List.mem_range.1 hj)
          · intro j hj
            cases hf : s.fds j with
            | none => exact absurd hf hj
            | some fd => exact List.mem_filter.2 ⟨List.mem_range.2 (h.below hf), by rw [hf]; rfl⟩
        · rw [if_neg hd] at e
          match ev, e with
          | .poll tm .eintr :: ev, e =>
            simp only [] at e
            by_cases htm : tm ≠ asInt (deadline - t)
            · rw [if_pos htm] at e; cases e
            rw [if_neg htm] at e
            obtain ⟨js, h1, h2, h3⟩ := ih s ev h L d ev' e
            refine ⟨js, h1, h2, ?_⟩
            rcases h3 with ⟨j, hj, w⟩ | ⟨w, hw⟩
            · exact .inl ⟨j, hj, w.log, w.other, w.slot, w.ok, w.ip, w.cause⟩
            · refine .inr ⟨w, hw.imp (fun ⟨tm, hm⟩ => ⟨tm, ?_⟩) id⟩
              exact List.mem_cons_of_mem _ (List.mem_cons_of_mem _ hm)
          | .poll tm .failed :: ev, e =>
            simp only [] at e
            by_cases htm : tm ≠ asInt (deadline - t)
            · rw [if_pos htm] at e; cases e
            rw [if_neg htm] at e
            simp only [Option.some.injEq, Prod.mk.injEq] at e
            obtain ⟨rfl, rfl, rfl⟩ := e
            exact ⟨[], by simp, by simp, .inr ⟨⟨rfl, rfl, rfl⟩, .inl ⟨tm, by simp⟩⟩⟩
          | .poll tm (.ready rev) :: ev, e =>
            simp only [] at e
            by_cases htm : tm ≠ asInt (deadline - t)
            · rw [if_pos htm] at e; cases e
            rw [if_neg htm] at e
            by_cases hl : rev.length ≠ (pending s n).length
            · rw [if_pos hl] at e; cases e
            · rw [if_neg hl] at e
              have hl' : rev.length = (pending s n).length := Classical.not_not.1 hl
              have hz : ((pending s n).zip rev).map (·.1) = pending s n := map_fst_zip_sub _ _ hl'
              rcases hs : scanTold ip n ((pending s n).zip rev) s ev with _ | ⟨l, r, ev2⟩
              · rw [hs] at e; cases e
              · rw [hs] at e
                obtain ⟨js, hnd, hb, hm⟩ := scanTold_ok hn ip ((pending s n).zip rev) s ev h (by rw [hz]; exact pending_nodup h.inv n) (by
                  intro q hq
                  apply mem_pending (n := n)
                  rw [← hz]
                  exact List.mem_map.2 ⟨q, hq, rfl⟩) l r ev2 hs
                cases r with
                | inl d2 =>
                  simp only [Option.some.injEq, Prod.mk.injEq] at e
                  obtain ⟨rfl, rfl, rfl⟩ := e
                  obtain ⟨j, hj, w⟩ := hm
                  exact ⟨js, hnd, hb, .inl ⟨j, hj, w.log, w.other, w.slot, w.ok, w.ip, w.cause⟩⟩
                | inr s2 =>
                  obtain ⟨hL, hr2, hc, hi⟩ := hm
                  simp only [] at e
                  rcases hq : pollTold ip n deadline fuel s2 ev2 with _ | ⟨l2, d2, ev3⟩
                  · rw [hq] at e; cases e
                  · rw [hq] at e
                    simp only [Option.map_some, Option.some.injEq, Prod.mk.injEq] at e
                    obtain ⟨rfl, rfl, rfl⟩ := e
                    obtain ⟨js2, h1, h2, h3⟩ := ih s2 ev2 hr2 l2 d2 ev3 hq
                    have back : ∀ j, s2.fds j ≠ none → s.fds j ≠ none ∧ j ∉ js := by
                      intro j hj
                      have := mt (hi j).2 hj
                      exact ⟨fun hc => this (.inl hc), fun hc => this (.inr hc)⟩
                    refine ⟨js ++ js2, ?_, ?_, ?_⟩
                    · rw [List.nodup_append]
                      exact ⟨hnd, h1, fun a ha b hb2 he => (back b (h2 b hb2)).2 (he ▸ ha)⟩
                    · intro j hj
                      rcases List.mem_append.1 hj with hj | hj
                      · exact hb j hj
                      · exact (back j (h2 j hj)).1
                    · rcases h3 with ⟨j, hj, w⟩ | ⟨w, hw⟩
                      · refine .inl ⟨j, (back j hj).1, ?_, ?_, w.slot, w.ok, w.ip, ?_⟩
                        · rw [hL, w.log]; simp [warnings]
                        · intro hc2
                          rcases List.mem_append.1 hc2 with hc2 | hc2
                          · exact (back j hj).2 hc2
                          · exact w.other hc2
                        · have := w.cause; rw [List.length_append]; simp only [refusals]; omega
                      · refine .inr ⟨⟨by rw [hL, w.log]; simp [warnings], w.fail, w.ip⟩, ?_⟩
                        rcases hw with ⟨tm2, hm2⟩ | hw
                        · left
                          have hsuf : ∀ x ∈ ev2, x ∈ ev := scanTold_sub ip n _ _ _ hs
                          exact ⟨tm2, List.mem_cons_of_mem _ (List.mem_cons_of_mem _ (hsuf _ hm2))⟩
                        · right
                          intro j hj
                          by_cases hj2 : s2.fds j = none
                          · rcases (hi j).1 hj2 with h9 | h9
                            · exact absurd h9 hj
                            · exact List.mem_append_left _ h9
                          · exact List.mem_append_right _ (hw j hj2)
          | [], e => simp at e
          | .socket _ :: _, e => simp at e
          | .dup _ :: _, e => simp at e
          | .time _ :: _, e => simp at e
          | .connect _ :: _, e => simp at e
          | .isConnected _ :: _, e => simp at e
      | [], e => simp at e
      | .socket _ :: _, e => simp at e
      | .dup _ :: _, e => simp at e
      | .connect _ :: _, e => simp at e
      | .poll _ _ :: _, e => simp at e
      | .isConnected _ :: _, e => simp at e

theorem connectTold_sub (ip : Bytes) (n : Nat) : ∀ k i (s : St) ev {L r ev'}, connectTold ip n k i s ev = some (L, r, ev') →
    ∀ x ∈ ev', x ∈ ev := by
  intro k
  induction k with
  | zero =>
    intro i s ev L r ev' e x hx
    simp only [connectTold, Option.some.injEq, Prod.mk.injEq] at e
    rw [e.2.2]; exact hx
  | succ k ih =>
    intro i s ev L r ev' e x hx
    rcases ev with _ | ⟨v, ev⟩
    · simp [connectTold] at e
    · cases v <;> try (simp [connectTold] at e; done)
      rename_i c
      rw [connectTold] at e
      cases hf : s.fds i with
      | none =>
        rw [hf] at e
        simp only at e
        split at e
        · obtain ⟨L', e2, _⟩ := say_some e
          exact List.mem_cons_of_mem _ (ih _ _ _ e2 x hx)
        · cases e
      | some fd =>
        rw [hf] at e
        simp only at e
        cases c with
        | connected =>
          simp only [if_pos, Option.some.injEq, Prod.mk.injEq] at e
          rw [← e.2.2] at hx
          exact List.mem_cons_of_mem _ hx
        | inProgress => exact List.mem_cons_of_mem _ (ih _ _ _ e x hx)
        | failed =>
          simp only at e
          obtain ⟨L', e2, _⟩ := say_some e
          exact List.mem_cons_of_mem _ (ih _ _ _ e2 x hx)

/-- C110: for every list of candidates (only the first eight count), every answer of the kernel and every completion order, the
log of an attempt over prepared slots warns of candidates by their own addresses, none twice. If the attempt succeeds, the
warned candidates are as many as were refused, the one that is reported is none of them, and the last line names the address that
was put in front of the list. If it fails, every candidate was warned of, unless the system refused to wait. -/
theorem c110_log (o : List Nat) (timeout : Int) (ip : Bytes) (iplen : Int) (n : Nat) (hl : 16 ≤ iplen) (hn : n = min (iplen.toNat / 16) 8)
    (s : St) (hs : Ready o n s) (ht : 1 ≤ timeout) (ev ev' : List Ev) (l : List Line) (d : Done)
    (e : connTold timeout ip iplen s ev = some (l, d, ev')) :
    ∃ js : List Nat, js.Nodup ∧ (∀ j ∈ js, j < n) ∧
    ((∃ j, WonLog ip n js j l d ev ev') ∨
     (LostLog ip js l d ∧ ((∃ tm, Ev.poll tm .failed ∈ ev) ∨ ∀ j, j < n → j ∈ js))) := by
  have hr := hs.run
  have h8 : maxip = 8 := rfl
  have hm : n ≤ maxip := by omega
  match ev, e with
  | .time t0 :: ev, e =>
    unfold connTold at e
    simp only [] at e
    rw [if_neg (by omega), show (min iplen ((maxip * 16 : Nat) : Int)).toNat / 16 = n by omega] at e
    rcases hc : connectTold ip n n 0 s ev with _ | ⟨l1, r, ev2⟩
    · rw [hc] at e; cases e
    · rw [hc] at e
      obtain ⟨js, hnd, hb, hx⟩ := connectTold_ok hm ip n 0 s ev hr (by omega) l1 r ev2 hc
      cases r with
      | inl d2 =>
        simp only [Option.some.injEq, Prod.mk.injEq] at e
        obtain ⟨rfl, rfl, rfl⟩ := e
        obtain ⟨j, _, w⟩ := hx
        exact ⟨js, hnd, fun j hj => (hb j hj).2, .inl ⟨j, w.log, w.other, w.slot, w.ok, w.ip, w.cause⟩⟩
      | inr s2 =>
        obtain ⟨hL, hr2, hcz, hi, _⟩ := hx
        simp only [] at e
        rcases hq : pollTold ip n (t0 + 1000 * timeout) (ev2.length + 1) s2 ev2 with _ | ⟨l2, d2, ev3⟩
        · rw [hq] at e; cases e
        · rw [hq] at e
          simp only [Option.map_some, Option.some.injEq, Prod.mk.injEq] at e
          obtain ⟨rfl, rfl, rfl⟩ := e
          obtain ⟨js2, h1, h2, h3⟩ := pollTold_ok hm ip _ _ s2 ev2 hr2 l2 d2 ev3 hq
          have low : ∀ j, s2.fds j ≠ none → j < n ∧ j ∉ js := by
            intro j hj
            by_cases hjn : j < n
            · exact ⟨hjn, fun hc => hj ((hi j (by omega) hjn).2 hc)⟩
            · exact absurd (hr2.empty j (by omega)).1 hj
          refine ⟨js ++ js2, ?_, ?_, ?_⟩
          · rw [List.nodup_append]
            exact ⟨hnd, h1, fun a ha b hb2 he => (low b (h2 b hb2)).2 (he ▸ ha)⟩
          · intro j hj
            rcases List.mem_append.1 hj with hj | hj
            · exact (hb j hj).2
            · exact (low j (h2 j hj)).1
          · rcases h3 with ⟨j, hj, w⟩ | ⟨w, hw⟩
            · refine .inl ⟨j, ?_, ?_, w.slot, w.ok, w.ip, ?_⟩
              · rw [hL, w.log]; simp [warnings]
              · intro hc2
                rcases List.mem_append.1 hc2 with hc2 | hc2
                · exact (low j hj).2 hc2
                · exact w.other hc2
              · have := w.cause; rw [List.length_append]; simp only [refusals]; omega
            · refine .inr ⟨⟨by rw [hL, w.log]; simp [warnings], w.fail, w.ip⟩, ?_⟩
              rcases hw with ⟨tm, hm2⟩ | hw
              · exact .inl ⟨tm, List.mem_cons_of_mem _ (connectTold_sub ip n _ _ _ _ hc _ hm2)⟩
              · right
                intro j hj
                by_cases hj2 : s2.fds j = none
                · exact List.mem_append_left _ ((hi j (by omega) hj).1 hj2)
                · exact List.mem_append_right _ (hw j hj2)
  | [], e => simp [connTold] at e
  | .socket _ :: _, e => simp [connTold] at e
  | .dup _ :: _, e => simp [connTold] at e
  | .connect _ :: _, e => simp [connTold] at e
  | .poll _ _ :: _, e => simp [connTold] at e
  | .isConnected _ :: _, e => simp [connTold] at e

/-- The attempt of `sampleEv`: the first candidate is refused and named, the second connected and named. -/
example : ∃ s' ev' d, init 2 start sampleEv = some (true, s', ev') ∧
    connTold 10 sampleIp 32 s' ev' = some ([.unable (some (List.replicate 16 1)), .connected (some (List.replicate 16 2))], d, []) ∧
    d.ret = .ok 5 (some 6) :=
  ⟨_, _, _, rfl, rfl, rfl⟩

/-- Both candidates run into the timeout: both are named. -/
example : ∃ s' ev' d, init 2 start [.socket (some 3), .dup (some 4), .socket (some 5), .dup (some 6), .time 1000, .connect .inProgress,
      .connect .inProgress, .time 11000] = some (true, s', ev') ∧
    connTold 10 sampleIp 32 s' ev' = some ([.unable (some (List.replicate 16 1)), .unable (some (List.replicate 16 2))], d, []) ∧
    d.ret = .fail :=
  ⟨_, _, _, rfl, rfl, rfl⟩

/-- The exception in `c110_log` is needed: if the system refuses to wait, the attempt fails and no candidate is named. -/
theorem c110_wait_refused : ∃ s' ev' d, init 2 start
      [.socket (some 3), .dup (some 4), .socket (some 5), .dup (some 6), .time 1000, .connect .inProgress, .connect .inProgress,
       .time 1001, .poll 9999 .failed] = some (true, s', ev') ∧
    connTold 10 sampleIp 32 s' ev' = some ([], d, []) ∧ d.ret = .fail :=
  ⟨_, _, _, rfl, rfl, rfl⟩

end Conn
