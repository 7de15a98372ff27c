import Verif.Lemmas.Ttl
/-
C106: the lifetimes of the storage entries of the token never change a balance, the
administrator or an allowance.  They can only make a transaction fail, until somebody
restores what it touches.
-/
namespace Phoenix.Props.Ttl
open Phoenix Phoenix.Ttl Phoenix.Ttl.Spec Phoenix.Spec

/-- A network like the main network: 17280 ledgers a day, at most half a year. -/
def exNet : Net := ⟨17280, 120960, 3110400⟩
theorem exNet_ok : NetOK exNet := ⟨by decide, by decide, by decide⟩

def exC (seq : Nat) : Ctx := { now := 0, seq := seq, signed := fun a => a = 1 || a = 2 || a = 3 }
def exT : TTok := (match Ttl.construct exNet 100 1 7 with | .ok t => t | .error _ => ⟨0, 0, 0, fun _ => none, fun _ _ => none⟩)

/-- A mint, an approval for a hundred days, and nothing for ninety days. -/
def exHist : List (Ctx × TOp) := [(exC 100, .call (.mint 2 1000)), (exC 200, .call (.approve 2 3 500 1728200)),
  (exC 1555400, .call (.transferFrom 3 2 4 200)), (exC 1555400, .restoreInst), (exC 1555400, .call (.transferFrom 3 2 4 200)),
  (exC 1555400, .restoreBal 2), (exC 1555400, .call (.transferFrom 3 2 4 200))]

theorem ok_with {α : Type} {x : Res α} {P : α → Prop} [DecidablePred P] (h : okAnd x (fun a => decide (P a)) = true) :
    ∃ a, x = .ok a ∧ P a := by
  obtain ⟨a, h1, h2⟩ := exists_of_okAnd h
  exact ⟨a, h1, of_decide_eq_true h2⟩

/-- **C106** A token can be created with lifetimes exactly when it can be without: for at most
eighteen decimals. -/
theorem C106_created_alike (n : Net) (seq : Nat) (admin : Addr) (d : Nat) :
    ((∃ t, Ttl.construct n seq admin d = .ok t) ↔ d ≤ 18) ∧ ((∃ b, Token.construct admin d = .ok b) ↔ d ≤ 18) := by
  constructor
  · constructor
    · rintro ⟨t, h⟩
      obtain ⟨_, h1, _⟩ := bind_ok.mp h
      exact req_ok.mp h1
    · intro h
      exact ⟨_, bind_ok.mpr ⟨(), req_ok.mpr h, rfl⟩⟩
  · constructor
    · rintro ⟨t, h⟩
      obtain ⟨_, h1, _⟩ := bind_ok.mp h
      exact req_ok.mp h1
    · intro h
      exact ⟨_, bind_ok.mpr ⟨(), req_ok.mpr h, rfl⟩⟩

/-- **C106** From its creation on, whatever is called and queried and however long nobody uses it,
the token holds the administrator, the balances and the allowances that the calls which
succeeded produce in a world without lifetimes, in which all of them succeed. -/
theorem C106_lifetimes_invisible {n : Net} (hn : NetOK n) {seq0 : Nat} {admin : Addr} {d : Nat} {t0 : TTok} {b0 : Token}
    (h : Ttl.construct n seq0 admin d = .ok t0) (hb : Token.construct admin d = .ok b0) {ks : List (Ctx × TOp)} (ho : Ordered seq0 ks) :
    AllSucceed b0 (effective n t0 ks) ∧
    (run n t0 ks).admin = (tokenRun b0 (effective n t0 ks)).admin ∧
    (∀ a, balOf (run n t0 ks) a = (tokenRun b0 (effective n t0 ks)).bal a) ∧
    (∀ seq, lastSeq seq0 ks ≤ seq → ∀ o s,
      (Ttl.readAllowance seq (run n t0 ks) o s).amount = ((tokenRun b0 (effective n t0 ks)).readAllowance seq o s).amount) := by
  obtain ⟨r, hs⟩ := run_rel hn (construct_rel h hb) ho
  exact ⟨hs, r.admin, r.bal, fun seq hl o s => ((r.mono hl).read o s).1⟩

/-- two calls of the example fail for lifetimes only; the account keeps its tokens meanwhile -/
example : Ttl.construct exNet 100 1 7 = .ok exT ∧ Ordered 100 exHist ∧
    (effective exNet exT exHist).length = 3 ∧ balOf (run exNet exT exHist) 2 = 800 ∧ balOf (run exNet exT exHist) 4 = 200 ∧
    balOf (run exNet exT (exHist.take 4)) 2 = 1000 ∧
    (Ttl.readAllowance 1728200 (run exNet exT exHist) 2 3).amount = 300 ∧
    (Ttl.readAllowance 1728201 (run exNet exT exHist) 2 3).amount = 0 :=
  ⟨rfl, ⟨by decide, by decide, by decide, by decide, by decide, by decide, by decide, trivial⟩,
    by decide +kernel, by decide +kernel, by decide +kernel, by decide +kernel, by decide +kernel, by decide +kernel⟩

/-- **C106** A call that fails although it succeeds without lifetimes found the instance or a
balance it moves archived, or is an approval for longer than the network keeps entries. -/
theorem C106_only_lifetimes_fail {n : Net} (hn : NetOK n) {seq0 : Nat} {admin : Addr} {d : Nat} {t0 : TTok} {b0 b' : Token}
    (h : Ttl.construct n seq0 admin d = .ok t0) (hb : Token.construct admin d = .ok b0) {ks : List (Ctx × TOp)} (ho : Ordered seq0 ks)
    {c : Ctx} (hc : lastSeq seq0 ks ≤ c.seq) {op : TokenOp} (hop : (tokenRun b0 (effective n t0 ks)).call c op = .ok b')
    {err : Err} (hf : step n c (run n t0 ks) (.call op) = .error err) :
    (run n t0 ks).inst < c.seq ∨ (∃ a ∈ parties op, Archived (run n t0 ks) c.seq a) ∨
    (∃ o s x e, op = .approve o s x e ∧ 0 < x ∧ n.maxTtl ≤ e - c.seq) := by
  obtain ⟨r, -⟩ := run_rel hn (construct_rel h hb) ho
  by_contra hcon
  simp only [not_or, not_exists, not_and] at hcon
  obtain ⟨h1, h2, h3⟩ := hcon
  obtain ⟨t', e⟩ := call_works hn (r.mono hc) hop h2 (fun o s x e h0 h4 => by
    have := h3 o s x e h0 h4
    omega)
  have : step n c (run n t0 ks) (.call op) = .ok t' := by
    simp only [step, bind_ok, req_ok]
    exact ⟨(), by omega, e⟩
  rw [this] at hf
  cases hf

example : (∃ b', (tokenRun (Token.mk 1 7 (fun _ => 0) (fun _ _ => ⟨0, 0⟩)) (effective exNet exT (exHist.take 2))).call (exC 1555400) (.transferFrom 3 2 4 200) = .ok b' ∧ b'.bal 4 = 200) ∧
    step exNet (exC 1555400) (run exNet exT (exHist.take 2)) (.call (.transferFrom 3 2 4 200)) = .error .panic :=
  ⟨ok_with (by decide +kernel), eq_of_failsWith (by decide +kernel)⟩

/-- the restorations a call needs -/
def restores (c : Ctx) (op : TokenOp) : List (Ctx × TOp) := (c, .restoreInst) :: (parties op).map (fun a => (c, .restoreBal a))

theorem restoreBal_live {n : Net} (hn : NetOK n) {c : Ctx} {t : TTok} {a d : Addr} :
    (¬ Archived t c.seq d ∨ d = a) → ¬ Archived (exec n t (c, .restoreBal a)) c.seq d := by
  have hp := hn.pers
  rintro h ⟨x, hx, hl⟩
  unfold exec at hx
  simp only [step] at hx
  cases hba : t.bal a with
  | none =>
    simp only [hba] at hx
    rcases h with h | rfl
    · exact h ⟨x, hx, hl⟩
    · rw [hba] at hx; cases hx
  | some y =>
    simp only [hba] at hx
    split at hx
    · simp only [upd_apply] at hx
      by_cases hd : d = a
      · simp only [hd, if_true, Option.some.injEq] at hx
        subst hx
        simp only at hl
        omega
      · simp only [hd, if_false] at hx
        rcases h with h | h
        · exact h ⟨x, hx, hl⟩
        · exact hd h
    · rcases h with h | rfl
      · exact h ⟨x, hx, hl⟩
      · rw [hba] at hx
        cases hx
        exact absurd hl ‹_›

theorem restoreBals_live {n : Net} (hn : NetOK n) {c : Ctx} {L : List Addr} {t : TTok} {d : Addr}
    (h : ¬ Archived t c.seq d ∨ d ∈ L) : ¬ Archived (run n t (L.map (fun a => (c, .restoreBal a)))) c.seq d := by
  induction L generalizing t with
  | nil => exact h.resolve_right (by simp)
  | cons a L ih =>
    refine ih ?_
    by_cases hd : d ∈ L
    · exact .inr hd
    · refine .inl (restoreBal_live hn ?_)
      rcases h with h | h
      · exact .inl h
      · rcases List.mem_cons.1 h with h | h
        · exact .inr h
        · exact absurd h hd

theorem restored_rel {n : Net} {c : Ctx} {b : Token} {L : List Addr} {t : TTok} (hr : Rel n c.seq t b) :
    Rel n c.seq (run n t (L.map (fun a => (c, .restoreBal a)))) b := by
  induction L generalizing t with
  | nil => exact hr
  | cons a L ih =>
    refine ih ?_
    unfold exec
    simp only
    cases hst : step n c t (.restoreBal a) with
    | error e => exact hr
    | ok t' => exact upkeep_rel hr (by simp) hst

/-- **C106** Restoring the instance and the balances the call moves is enough, and
anybody can do it: no failure for lifetimes is final. -/
theorem C106_restorable {n : Net} (hn : NetOK n) {seq0 : Nat} {admin : Addr} {d : Nat} {t0 : TTok} {b0 b' : Token}
    (h : Ttl.construct n seq0 admin d = .ok t0) (hb : Token.construct admin d = .ok b0) {ks : List (Ctx × TOp)} (ho : Ordered seq0 ks)
    {c : Ctx} (hc : lastSeq seq0 ks ≤ c.seq) {op : TokenOp} (hop : (tokenRun b0 (effective n t0 ks)).call c op = .ok b')
    (hx : ∀ o s x e, op = .approve o s x e → e - c.seq < n.maxTtl) :
    ∃ t', step n c (run n (run n t0 ks) (restores c op)) (.call op) = .ok t' ∧ ∀ a, balOf t' a = b'.bal a := by
  obtain ⟨r, -⟩ := run_rel hn (construct_rel h hb) ho
  have r1 := r.mono hc
  generalize run n t0 ks = t at r1 ⊢
  generalize tokenRun b0 (effective n t0 ks) = b at r1 hop
  have r2 : Rel n c.seq (exec n t (c, .restoreInst)) b := by
    unfold exec
    simp only
    cases hst : step n c t .restoreInst with
    | error e => exact r1
    | ok t' => exact upkeep_rel r1 (by simp) hst
  have hi : c.seq ≤ (exec n t (c, .restoreInst)).inst := by
    have := hn.pers
    unfold exec
    simp only [step]
    split
    · simp only; omega
    · omega
  show ∃ t', step n c (run n (exec n t (c, .restoreInst)) ((parties op).map (fun a => (c, .restoreBal a)))) (.call op) = .ok t' ∧ _
  generalize exec n t (c, .restoreInst) = t1 at r2 hi
  have r3 := restored_rel (L := parties op) r2
  obtain ⟨t', e⟩ := call_works hn r3 hop (fun a ha => restoreBals_live hn (.inr ha)) (fun o s x e h0 _ => hx o s x e h0)
  refine ⟨t', ?_, ?_⟩
  · simp only [step, bind_ok, req_ok]
    exact ⟨(), le_trans hi (run_grows hn).inst, e⟩
  · obtain ⟨b'', k1, k2⟩ := call_rel hn r3 e
    rw [hop] at k1
    cases k1
    exact k2.bal

example : ∃ t', step exNet (exC 1555400) (run exNet (run exNet exT (exHist.take 2)) (restores (exC 1555400) (.transferFrom 3 2 4 200)))
    (.call (.transferFrom 3 2 4 200)) = .ok t' ∧ balOf t' 4 = 200 := ok_with (by decide +kernel)

/-- **C106** An approval is good in full up to and including its last ledger, however long nobody
uses the token, unless the owner approves anew or the spender spends. -/
theorem C106_allowance_lasts {n : Net} (hn : NetOK n) {c : Ctx} {t t1 : TTok} {o s : Addr} {x : Int} {e : Nat} (hx : 0 < x)
    (h : step n c t (.call (.approve o s x e)) = .ok t1) {ks : List (Ctx × TOp)}
    (hk : ∀ k ∈ effective n t1 ks, ¬ Touches o s k.2) {seq : Nat} (he : seq ≤ e) :
    (Ttl.readAllowance seq (run n t1 ks) o s).amount = x := by
  simp only [step, callLive, bind_ok] at h
  obtain ⟨_, _, _, _, _, _, h⟩ := h
  obtain ⟨-, -, -, h⟩ := writeAllowance_shape h
  obtain ⟨l, hl, hle⟩ := h hx
  have := run_allow hn hk
  unfold Ttl.readAllowance visible
  rw [this, hl]
  have k1 : ¬ l < seq := by omega
  have k2 : ¬ e < seq := by omega
  simp only [k1, k2, if_false]

example : (∃ t1, step exNet (exC 200) (run exNet exT (exHist.take 1)) (.call (.approve 2 3 500 1728200)) = .ok t1 ∧
    (Ttl.readAllowance 1728200 t1 2 3).amount = 500 ∧ (Ttl.readAllowance 1728201 t1 2 3).amount = 0) :=
  ok_with (by decide +kernel)

/-- **C106** Every call keeps the instance live for six days and the balances it moves for
twenty-nine, whatever happens afterwards. -/
theorem C106_upkeep {n : Net} (hn : NetOK n) {c : Ctx} {t t1 : TTok} {op : TokenOp}
    (h : step n c t (.call op) = .ok t1) (ks : List (Ctx × TOp)) :
    c.seq + 6 * DAY ≤ (run n t1 ks).inst ∧
    ∀ a ∈ parties op, ∀ seq, seq ≤ c.seq + 29 * DAY → ¬ Archived (run n t1 ks) seq a := by
  simp only [step, bind_ok] at h
  obtain ⟨_, _, h⟩ := h
  obtain ⟨-, h1, h2, -⟩ := call_shape hn h
  have g := run_grows hn (t := t1) (ks := ks)
  have e1 : INSTANCE_THRESHOLD = 6 * DAY := by decide
  have e2 : BALANCE_THRESHOLD = 29 * DAY := by decide
  rw [e1] at h1
  rw [e2] at h2
  refine ⟨le_trans h1 g.inst, fun a ha seq hs hA => ?_⟩
  obtain ⟨y, hy, hl⟩ := lives_of_grows g (h2 a ha)
  obtain ⟨z, hz, hzl⟩ := hA
  rw [hy] at hz
  cases hz
  omega

/-- sharp up to a day: ninety days later the balance of the example is archived -/
example : (∃ t1, step exNet (exC 100) exT (.call (.mint 2 1000)) = .ok t1 ∧ t1.bal 2 = some ⟨1000, 518500⟩ ∧ t1.inst = 121059) :=
  ok_with (by decide +kernel)

/-- No entry lives longer than to ledger `m`. -/
def Within (m : Nat) (t : TTok) : Prop :=
  t.inst ≤ m ∧ (∀ a x, t.bal a = some x → x.live ≤ m) ∧ ∀ o s x, t.allow o s = some x → x.live ≤ m

theorem extended_le {n : Net} {seq th tt live : Nat} (h : live ≤ seq + n.maxTtl - 1) :
    extended n seq th tt live ≤ seq + n.maxTtl - 1 := by
  unfold extended; simp only; split
  · exact min_le_right _ _
  · exact h

theorem Within.bal {m : Nat} {t : TTok} (w : Within m t) {a : Addr} {x : Live Int} (h : x.live ≤ m) :
    Within m { t with bal := upd t.bal a (some x) } := by
  refine ⟨w.1, fun b y hy => ?_, w.2.2⟩
  by_cases e : b = a
  · subst e; simp only [upd_same] at hy; cases hy; exact h
  · simp only [upd_ne _ _ e] at hy; exact w.2.1 b y hy

theorem Within.allow {m : Nat} {t : TTok} (w : Within m t) {o s : Addr} {x : Live Allowance} (h : x.live ≤ m) :
    Within m { t with allow := upd t.allow o (upd (t.allow o) s (some x)) } := by
  refine ⟨w.1, w.2.1, fun b d y hy => ?_⟩
  by_cases e : b = o
  · subst e
    simp only [upd_same] at hy
    by_cases f : d = s
    · subst f; rw [upd_same] at hy; cases hy; exact h
    · rw [upd_ne _ _ f] at hy; exact w.2.2 b d y hy
  · simp only [upd_ne _ _ e] at hy; exact w.2.2 b d y hy

variable {n : Net} {c : Ctx} {t t' : TTok}

theorem Within.bump {seq : Nat} (w : Within (seq + n.maxTtl - 1) t) : Within (seq + n.maxTtl - 1) (bumpInst n seq t) :=
  ⟨extended_le w.1, w.2.1, w.2.2⟩

theorem Within.readBal {seq : Nat} {a : Addr} {b : Int} (w : Within (seq + n.maxTtl - 1) t) (e : Ttl.readBal n seq t a = .ok (b, t')) :
    Within (seq + n.maxTtl - 1) t' := by
  unfold Ttl.readBal at e
  cases h : t.bal a with
  | none => simp only [h, ok_inj, Prod.mk.injEq] at e; obtain ⟨-, rfl⟩ := e; exact w
  | some x =>
    simp only [h] at e
    split at e
    · cases e
    · simp only [ok_inj, Prod.mk.injEq] at e; obtain ⟨-, rfl⟩ := e
      exact w.bal (extended_le (w.2.1 a x h))

theorem Within.writeBal {seq : Nat} {a : Addr} {b : Int} (hp : n.minPers ≤ n.maxTtl) (w : Within (seq + n.maxTtl - 1) t)
    (e : Ttl.writeBal n seq t a b = .ok t') : Within (seq + n.maxTtl - 1) t' := by
  unfold Ttl.writeBal at e
  cases h : t.bal a with
  | none => simp only [h, ok_inj] at e; subst e; exact w.bal (extended_le (by omega))
  | some x =>
    simp only [h] at e
    split at e
    · cases e
    · simp only [ok_inj] at e; subst e
      exact w.bal (extended_le (w.2.1 a x h))

theorem Within.receive {seq : Nat} {a : Addr} {b : Int} (hp : n.minPers ≤ n.maxTtl) (w : Within (seq + n.maxTtl - 1) t)
    (e : Ttl.receive n seq t a b = .ok t') : Within (seq + n.maxTtl - 1) t' := by
  simp only [Ttl.receive, bind_ok, Prod.exists] at e
  obtain ⟨x, t1, h1, v, -, h2⟩ := e
  exact (w.readBal h1).writeBal hp h2

theorem Within.spend {seq : Nat} {a : Addr} {b : Int} (hp : n.minPers ≤ n.maxTtl) (w : Within (seq + n.maxTtl - 1) t)
    (e : Ttl.spend n seq t a b = .ok t') : Within (seq + n.maxTtl - 1) t' := by
  simp only [Ttl.spend, bind_ok, Prod.exists] at e
  obtain ⟨x, t1, h1, _, -, v, -, h2⟩ := e
  exact (w.readBal h1).writeBal hp h2

theorem setTemp_le {seq : Nat} {o s : Addr} {v : Allowance} (hq : n.minTemp ≤ n.maxTtl) (w : Within (seq + n.maxTtl - 1) t) :
    (setTemp n seq (t.allow o s) v).live ≤ seq + n.maxTtl - 1 := by
  unfold setTemp visible
  cases h : t.allow o s with
  | none => simp only; omega
  | some x =>
    have := w.2.2 o s x h
    by_cases hl : x.live < seq
    · simp only [hl, if_true]; omega
    · simp only [hl, if_false]; exact this

theorem Within.writeAllowance {seq : Nat} {o s : Addr} {x : Int} {exp : Nat} (hq : n.minTemp ≤ n.maxTtl)
    (w : Within (seq + n.maxTtl - 1) t) (e : Ttl.writeAllowance n seq t o s x exp = .ok t') : Within (seq + n.maxTtl - 1) t' := by
  simp only [Ttl.writeAllowance, bind_ok] at e
  obtain ⟨_, -, e⟩ := e
  have hs := setTemp_le (o := o) (s := s) (v := ⟨x, exp⟩) hq w
  split at e
  · simp only [bind_ok, ok_inj, extendTemp, req_ok] at e
    obtain ⟨y, ⟨_, hm, rfl⟩, rfl⟩ := e
    refine w.allow ?_
    split
    · show seq + (exp - seq) ≤ _
      omega
    · exact hs
  · simp only [ok_inj] at e; subst e
    exact w.allow hs

theorem Within.spendAllowance {seq : Nat} {o s : Addr} {x : Int} (hq : n.minTemp ≤ n.maxTtl)
    (w : Within (seq + n.maxTtl - 1) t) (e : Ttl.spendAllowance n seq t o s x = .ok t') : Within (seq + n.maxTtl - 1) t' := by
  simp only [Ttl.spendAllowance, bind_ok] at e
  obtain ⟨_, -, e⟩ := e
  split at e
  · simp only [bind_ok] at e
    obtain ⟨_, -, e⟩ := e
    exact w.writeAllowance hq e
  · simp only [ok_inj] at e; subst e; exact w

theorem Within.step {op : TOp} (hp : n.minPers ≤ n.maxTtl) (hq : n.minTemp ≤ n.maxTtl) (w : Within (c.seq + n.maxTtl - 1) t)
    (e : Ttl.step n c t op = .ok t') : Within (c.seq + n.maxTtl - 1) t' := by
  cases op with
  | call op =>
    simp only [Ttl.step, bind_ok] at e
    obtain ⟨_, -, e⟩ := e
    cases op with
    | mint d x => simp only [callLive, bind_ok] at e; obtain ⟨_, -, _, -, e⟩ := e; exact w.bump.receive hp e
    | setAdmin a => simp only [callLive, bind_ok, ok_inj] at e; obtain ⟨_, -, rfl⟩ := e; exact w.bump
    | approve o s x ex => simp only [callLive, bind_ok] at e; obtain ⟨_, -, _, -, e⟩ := e; exact w.bump.writeAllowance hq e
    | transfer s d x =>
      simp only [callLive, bind_ok] at e; obtain ⟨_, -, _, -, t1, h1, e⟩ := e; exact (w.bump.spend hp h1).receive hp e
    | transferFrom sp s d x =>
      simp only [callLive, bind_ok] at e; obtain ⟨_, -, _, -, t1, h1, t2, h2, e⟩ := e
      exact ((w.bump.spendAllowance hq h1).spend hp h2).receive hp e
    | burn s x => simp only [callLive, bind_ok] at e; obtain ⟨_, -, _, -, e⟩ := e; exact w.bump.spend hp e
    | burnFrom sp s x =>
      simp only [callLive, bind_ok] at e; obtain ⟨_, -, _, -, t1, h1, e⟩ := e; exact (w.bump.spendAllowance hq h1).spend hp e
  | balance a =>
    simp only [Ttl.step, bind_ok, Prod.exists, ok_inj] at e
    obtain ⟨_, -, b, t1, h1, rfl⟩ := e
    exact w.bump.readBal h1
  | allowance o s => simp only [Ttl.step, bind_ok, ok_inj] at e; obtain ⟨_, -, rfl⟩ := e; exact w.bump
  | restoreBal a =>
    simp only [Ttl.step] at e
    cases h : t.bal a with
    | none => simp only [h, ok_inj] at e; subst e; exact w
    | some x =>
      simp only [h, ok_inj] at e; subst e
      split
      · exact w.bal (by show c.seq + n.minPers - 1 ≤ _; omega)
      · exact w
  | restoreInst =>
    simp only [Ttl.step, ok_inj] at e; subst e
    split
    · exact ⟨by show c.seq + n.minPers - 1 ≤ _; omega, w.2⟩
    · exact w

/-- **C106** Nothing outlives what the network allows: on any network whose minimal lifetimes do not exceed its maximal one, after any
history the instance, every balance and every allowance live at most to the last ledger plus the maximal lifetime less one. -/
theorem C106_network_limit {n : Net} (hp : n.minPers ≤ n.maxTtl) (hq : n.minTemp ≤ n.maxTtl) {seq0 : Nat} {admin : Addr} {d : Nat}
    {t0 : TTok} (h : Ttl.construct n seq0 admin d = .ok t0) {ks : List (Ctx × TOp)} (ho : Ordered seq0 ks) :
    (run n t0 ks).inst ≤ lastSeq seq0 ks + n.maxTtl - 1 ∧
    (∀ a x, (run n t0 ks).bal a = some x → x.live ≤ lastSeq seq0 ks + n.maxTtl - 1) ∧
    ∀ o s x, (run n t0 ks).allow o s = some x → x.live ≤ lastSeq seq0 ks + n.maxTtl - 1 := by
  have gen : ∀ (ks : List (Ctx × TOp)) (seq : Nat) (t : TTok), Ordered seq ks → Within (seq + n.maxTtl - 1) t →
      Within (lastSeq seq ks + n.maxTtl - 1) (run n t ks) := by
    intro ks
    induction ks with
    | nil => intro seq t _ w; exact w
    | cons k ks ih =>
      intro seq t ho w
      refine ih k.1.seq _ ho.2 ?_
      have hs := ho.1
      have w' : Within (k.1.seq + n.maxTtl - 1) t :=
        ⟨by have := w.1; omega, fun a x hx => by have := w.2.1 a x hx; omega, fun o s x hx => by have := w.2.2 o s x hx; omega⟩
      unfold exec
      cases e : Ttl.step n k.1 t k.2 with
      | error _ => exact w'
      | ok t' => exact w'.step hp hq e
  refine gen ks seq0 t0 ho ?_
  simp only [Ttl.construct, bind_ok, ok_inj] at h
  obtain ⟨_, -, rfl⟩ := h
  exact ⟨by show seq0 + n.minPers - 1 ≤ _; omega, fun a x hx => by simp at hx, fun o s x hx => by simp at hx⟩

/-- On a network that allows only three days the balance of account 2 lives exactly as long as that. -/
example : (Ttl.construct ⟨16, 4096, 3 * DAY⟩ 100 1 7).toOption.bind (fun t =>
    ((run ⟨16, 4096, 3 * DAY⟩ t [(exC 100, .call (.mint 2 1000))]).bal 2).map Live.live) = some (100 + 3 * DAY - 1) := by decide +kernel

end Phoenix.Props.Ttl
