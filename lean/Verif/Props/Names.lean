import Verif.Spec.Names
import Verif.Props.EventsPeriphery
import Verif.Props.Rights
import Verif.Props.RouteQuote
import Verif.Lemmas.Admin
/-!
Property theorems about the texts that contracts carry: C140.
-/
namespace Phoenix.Props.Names
open Phoenix Phoenix.World Phoenix.World.Spec Phoenix.Spec

variable {h : Host} {acct : Accounts} {w w' w0 : World} {n n' : Names} {c : Ctx}

theorem stepN_eq (h : Host) (w : World) (n : Names) (c : Ctx) (t : Texts) (k : Call) :
    step h w c k = (stepN h w n c t k).map (·.1) := by
  have gen : ∀ (k : Call) (n' : Names), step h w c k = (step h w c k >>= fun w' => (.ok (w', n') : Res _)).map (·.1) := by
    intro k l; cases step h w c k <;> rfl
  cases k with
  | create F sender i k amp sl mf =>
    simp only [stepN, step, Except.map_bind, Except.map_ok]
  | vest V j => cases j <;> exact gen _ _
  | _ => exact gen _ _

theorem execN_eq (h : Host) (s : World × Names) (t : TxN) : (execN h s t).1 = exec h s.1 t.tx := by
  unfold execN exec
  rw [stepN_eq h s.1 s.2 t.tx.ctx t.texts t.tx.call]
  cases stepN h s.1 s.2 t.tx.ctx t.texts t.tx.call <;> rfl

/-- **C140** Texts change nothing: whatever names and symbols are given in the calls and found in storage, every call succeeds and
fails and has the effect that it has without them. -/
theorem C140_texts_change_nothing (h : Host) (s : World × Names) (ts : List TxN) : (runN h s ts).1 = run h s.1 (calls ts) := by
  induction ts generalizing s with
  | nil => rfl
  | cons t ts ih =>
    show (runN h (execN h s t) ts).1 = run h (exec h s.1 t.tx) (calls ts)
    rw [ih, execN_eq]

/-- where a successful call stores the texts of a token there was no contract before -/
theorem token_kept {t : Texts} {k : Call} (e : stepN h w n c t k = .ok (w', n')) {tok : Addr} (ht : w.code tok ≠ .none) :
    n'.token tok = n.token tok := by
  cases k with
  | create F sender i k amp sl mf =>
    simp only [stepN, bind_ok, ok_inj, Prod.exists, Prod.mk.injEq] at e
    obtain ⟨_, -, w1, P, h1, rfl, rfl⟩ := e
    simp only [create, bind_ok, ok_inj, deploy_ok, Prod.mk.injEq] at h1
    obtain ⟨_, _, _, _, f, hf, _, _, _, _, w1, ⟨hP, rfl⟩, _, _, _, _, _, _, _, _, _, _, _, _, w2, h2, rfl, rfl⟩ := h1
    refine upd_ne _ _ fun q => ht ?_
    have hS : upd w.code (h.poolAddr F i.tokenA i.tokenB) k.code tok = .none := by
      cases k with
      | xyk =>
        simp only [initPool, initXyk, bind_ok, ok_inj, deploy_ok, Prod.exists] at h2
        obtain ⟨p, L', hi, w1, ⟨hS, rfl⟩, -⟩ := h2
        rw [q]; exact hS
      | stable =>
        simp only [initPool, initStable, bind_ok, ok_inj, deploy_ok, Prod.exists] at h2
        obtain ⟨_, _, _, _, p, L', hi, w1, ⟨hS, rfl⟩, -⟩ := h2
        rw [q]; exact hS
    by_cases hq : tok = h.poolAddr F i.tokenA i.tokenB
    · rw [hq, upd_same] at hS; cases k <;> cases hS
    · rwa [upd_ne _ _ hq] at hS
  | xykInit P i owner dec sl mf =>
    simp only [stepN, step, bind_ok, ok_inj, Prod.mk.injEq] at e
    obtain ⟨w1, ⟨_, -, h1⟩, rfl, rfl⟩ := e
    simp only [initXyk, bind_ok, ok_inj, deploy_ok, Prod.exists] at h1
    obtain ⟨p, L', hi, w1, ⟨hS, rfl⟩, -⟩ := h1
    exact upd_ne _ _ fun q => ht (q ▸ hS)
  | stableInit P i owner amp mf =>
    simp only [stepN, step, bind_ok, ok_inj, Prod.mk.injEq] at e
    obtain ⟨w1, ⟨_, -, h1⟩, rfl, rfl⟩ := e
    simp only [initStable, bind_ok, ok_inj, deploy_ok, Prod.exists] at h1
    obtain ⟨_, _, _, _, p, L', hi, w1, ⟨hS, rfl⟩, -⟩ := h1
    exact upd_ne _ _ fun q => ht (q ▸ hS)
  | vest V j =>
    cases j <;>
    · simp only [stepN, bind_ok, ok_inj, Prod.mk.injEq] at e
      obtain ⟨w1, -, -, rfl⟩ := e
      rfl
  | _ =>
    simp only [stepN, bind_ok, ok_inj, Prod.mk.injEq] at e
    obtain ⟨w1, -, -, rfl⟩ := e
    rfl

theorem trader_kept {t : Texts} {k : Call} (e : stepN h w n c t k = .ok (w', n')) {T : Addr} {s : Trader.State}
    (hT : w.trd T = some s) : n'.trader T = n.trader T := by
  cases k with
  | trdInit T' admin a b o =>
    simp only [stepN, step, bind_ok, ok_inj, Prod.mk.injEq] at e
    obtain ⟨w1, ⟨_, -, s', h1, rfl⟩, rfl, rfl⟩ := e
    refine upd_ne _ _ fun q => ?_
    subst q
    rw [hT] at h1
    simp [Trader.init, bind_ok, req_ok] at h1
  | create F sender i k amp sl mf =>
    simp only [stepN, bind_ok, ok_inj, Prod.exists, Prod.mk.injEq] at e
    obtain ⟨_, -, w1, P, h1, rfl, rfl⟩ := e
    rfl
  | vest V j =>
    cases j <;>
    · simp only [stepN, bind_ok, ok_inj, Prod.mk.injEq] at e
      obtain ⟨w1, -, -, rfl⟩ := e
      rfl
  | _ =>
    simp only [stepN, bind_ok, ok_inj, Prod.mk.injEq] at e
    obtain ⟨w1, -, -, rfl⟩ := e
    rfl

theorem vest_kept {t : Texts} {k : Call} (e : stepN h w n c t k = .ok (w', n')) {V : Addr} {s : Vesting.State}
    (hV : w.vest V = some s) : n'.vest V = n.vest V := by
  cases k with
  | create F sender i k amp sl mf =>
    simp only [stepN, bind_ok, ok_inj, Prod.exists, Prod.mk.injEq] at e
    obtain ⟨_, -, w1, P, h1, rfl, rfl⟩ := e
    rfl
  | vest V' j =>
    cases j with
    | init admin token max minter =>
      simp only [stepN, step, Vesting.step, bind_ok, ok_inj, Prod.mk.injEq] at e
      obtain ⟨w1, ⟨_, -, s', ⟨v, h1, rfl⟩, rfl⟩, rfl, rfl⟩ := e
      refine upd_ne _ _ fun q => ?_
      subst q
      rw [hV] at h1
      exact absurd (Vesting.init_ok h1).1 (by simp)
    | _ =>
      simp only [stepN, bind_ok, ok_inj, Prod.mk.injEq] at e
      obtain ⟨w1, -, -, rfl⟩ := e
      rfl
  | _ =>
    simp only [stepN, bind_ok, ok_inj, Prod.mk.injEq] at e
    obtain ⟨w1, -, -, rfl⟩ := e
    rfl

/-- The decimals of an existing token never change. -/
theorem decimals_kept {k : Call} (e : step h w c k = .ok w') {tok : Addr} (ht : w.code tok ≠ .none) :
    (w'.led tok).decimals = (w.led tok).decimals := by
  by_cases hk : ∃ u op, k = .token u op
  · obtain ⟨u, op, rfl⟩ := hk
    simp only [step, bind_ok, ok_inj] at e
    obtain ⟨_, _, L, h2, rfl⟩ := e
    exact Phoenix.Stable.call_decimals h2 tok
  · rcases step_rights (fun u op hu => hk ⟨u, op, hu⟩) e tok with ⟨k1, k2, k3⟩ | ⟨k1, -⟩
    · exact k3
    · exact absurd k1 ht

theorem stepN_step {t : Texts} {k : Call} (e : stepN h w n c t k = .ok (w', n')) : step h w c k = .ok w' := by
  rw [stepN_eq h w n c t k, e]; rfl

/-- Everything about a token that its users see and that is not a balance. -/
theorem token_step {s : World × Names} (t : TxN) {tok : Addr} (ht : s.1.code tok = .token) :
    (execN h s t).1.code tok = .token ∧ (execN h s t).2.token tok = s.2.token tok ∧
      ((execN h s t).1.led tok).decimals = (s.1.led tok).decimals := by
  obtain ⟨w, n⟩ := s
  unfold execN
  split
  · rename_i r e
    obtain ⟨w', n'⟩ := r
    have hne : w.code tok ≠ .none := by rw [ht]; simp
    have e' := stepN_step e
    exact ⟨(step_code e' hne).trans ht, token_kept e hne, decimals_kept e' hne⟩
  · exact ⟨ht, rfl, rfl⟩

theorem token_run {tok : Addr} : ∀ (ts : List TxN) {s : World × Names}, s.1.code tok = .token →
    (runN h s ts).1.code tok = .token ∧ (runN h s ts).2.token tok = s.2.token tok ∧
      ((runN h s ts).1.led tok).decimals = (s.1.led tok).decimals
  | [], s, ht => ⟨ht, rfl, rfl⟩
  | t :: ts, s, ht => by
    obtain ⟨a1, a2, a3⟩ := token_step (h := h) t ht
    obtain ⟨b1, b2, b3⟩ := token_run ts a1
    exact ⟨b1, b2.trans a2, b3.trans a3⟩

/-- **C140** The name, the symbol and the decimals of a token are what they are for ever: once a token answers them, it answers
the same after every later history. -/
theorem C140_token_for_ever {h : Host} {s : World × Names} {tok : Addr} {name symbol : String} {dec : Nat}
    (e1 : tokenName s.1 s.2 tok = .ok name) (e2 : tokenSymbol s.1 s.2 tok = .ok symbol) (e3 : tokenDecimals s.1 tok = .ok dec)
    (ts : List TxN) :
    tokenName (runN h s ts).1 (runN h s ts).2 tok = .ok name ∧ tokenSymbol (runN h s ts).1 (runN h s ts).2 tok = .ok symbol ∧
      tokenDecimals (runN h s ts).1 tok = .ok dec := by
  simp only [tokenName, tokenSymbol, tokenDecimals, bind_ok, ok_inj, expect_ok] at e1 e2 e3 ⊢
  obtain ⟨-, ht, rfl⟩ := e1
  obtain ⟨-, -, rfl⟩ := e2
  obtain ⟨-, -, rfl⟩ := e3
  obtain ⟨b1, b2, b3⟩ := token_run (h := h) ts ht
  exact ⟨⟨(), b1, by rw [b2]⟩, ⟨(), b1, by rw [b2]⟩, (), b1, b3⟩

theorem traderAt_ok {T : Addr} {s : Trader.State} : traderAt w T = .ok s ↔ w.code T = .trader ∧ w.trd T = some s := by
  unfold traderAt
  simp only [bind_ok, expect_ok]
  constructor
  · rintro ⟨_, h1, h2⟩
    refine ⟨h1, ?_⟩
    unfold Trader.loaded at h2
    split at h2 <;> simp_all
  · rintro ⟨h1, h2⟩
    exact ⟨(), h1, by rw [h2]; rfl⟩

theorem trader_step {s : World × Names} (t : TxN) {T : Addr} {x : Trader.State} (hc : s.1.code T = .trader)
    (ht : s.1.trd T = some x) :
    (execN h s t).1.code T = .trader ∧ (execN h s t).2.trader T = s.2.trader T ∧ ∃ y, (execN h s t).1.trd T = some y := by
  obtain ⟨w, n⟩ := s
  unfold execN
  split
  · rename_i r e
    obtain ⟨w', n'⟩ := r
    have hne : w.code T ≠ .none := by rw [hc]; simp
    have e' := stepN_step e
    refine ⟨(step_code e' hne).trans hc, trader_kept e ht, x, ?_⟩
    rw [EventsLog.trd_kept e' fun admin a b o q => ?_]
    · exact ht
    · rw [q] at e'
      simp only [step, bind_ok] at e'
      obtain ⟨_, -, s', h1, -⟩ := e'
      rw [show w.trd T = some x from ht] at h1
      simp [Trader.init, bind_ok, req_ok] at h1
  · exact ⟨hc, rfl, x, ht⟩

/-- **C140** So is the name of a trader. -/
theorem C140_trader_for_ever {h : Host} {T : Addr} {name : String} : ∀ (ts : List TxN) {s : World × Names},
    queryContractName s.1 s.2 T = .ok name → queryContractName (runN h s ts).1 (runN h s ts).2 T = .ok name
  | [], s, e => e
  | t :: ts, s, e => by
    refine C140_trader_for_ever ts (s := execN h s t) ?_
    simp only [queryContractName, bind_ok, ok_inj, traderAt_ok] at e ⊢
    obtain ⟨x, ⟨hc, hx⟩, rfl⟩ := e
    obtain ⟨a1, a2, y, hy⟩ := trader_step (h := h) t hc hx
    exact ⟨y, ⟨a1, hy⟩, a2⟩

/-- **C140** A trader carries the name and a vesting contract the description given at its initialization. -/
theorem C140_as_told {t : Texts} :
    (∀ {T admin a b o : Addr}, stepN h w n c t (.trdInit T admin a b o) = .ok (w', n') →
      queryContractName w' n' T = .ok t.contractName ∧ n'.token = n.token ∧ n'.vest = n.vest) ∧
    (∀ {V admin token : Addr} {max : Nat} {minter : Option Vesting.Minter},
      stepN h w n c t (.vest V (.init admin token max minter)) = .ok (w', n') →
      queryTokenInfo w' n' V = .ok (token, ⟨t.label, t.decimals⟩) ∧ n'.token = n.token ∧ n'.trader = n.trader) := by
  refine ⟨fun {T admin a b o} e => ?_, fun {V admin token max minter} e => ?_⟩
  · simp only [stepN, step, bind_ok, ok_inj, Prod.mk.injEq, expect_ok] at e
    obtain ⟨w1, ⟨_, hc, s', h1, rfl⟩, rfl, rfl⟩ := e
    refine ⟨?_, rfl, rfl⟩
    simp only [queryContractName, bind_ok, ok_inj, traderAt_ok]
    exact ⟨s', ⟨hc, upd_same _ _ _⟩, upd_same _ _ _⟩
  · simp only [stepN, step, Vesting.step, bind_ok, ok_inj, Prod.mk.injEq, expect_ok] at e
    obtain ⟨w1, ⟨_, hc, s', ⟨v, h1, rfl⟩, rfl⟩, rfl, rfl⟩ := e
    refine ⟨?_, rfl, rfl⟩
    simp only [queryTokenInfo, bind_ok, ok_inj, expect_ok, Vesting.loaded_ok]
    refine ⟨(), hc, v, upd_same _ _ _, ?_⟩
    rw [upd_same]
    simp only [Prod.mk.injEq, and_true]
    simp only [Vesting.init, bind_ok, ok_inj, req_ok] at h1
    obtain ⟨_, -, _, -, rfl⟩ := h1
    rfl

/-- **C140** What a trader says about its output token is what the token says about itself: the same address and decimals as without
the texts, and the name and the symbol that the token answers. -/
theorem C140_trader_output {T tok : Addr} {l : Label} {d : Nat} :
    queryOutputTokenN w n T = .ok (tok, l, d) ↔ queryOutputToken w T = .ok (tok, d) ∧ tokenName w n tok = .ok l.name ∧
      tokenSymbol w n tok = .ok l.symbol ∧ tokenDecimals w tok = .ok d := by
  obtain ⟨ln, ls⟩ := l
  simp only [queryOutputTokenN, queryOutputToken, tokenName, tokenSymbol, tokenDecimals, bind_ok, ok_inj, expect_ok, Prod.mk.injEq,
    Label.mk.injEq]
  constructor
  · rintro ⟨t, ht, _, ⟨_, hc, rfl⟩, _, ⟨_, -, rfl⟩, _, ⟨_, -, rfl⟩, rfl, ⟨rfl, rfl⟩, rfl⟩
    exact ⟨⟨t, ht, (), hc, rfl, rfl⟩, ⟨(), hc, rfl⟩, ⟨(), hc, rfl⟩, (), hc, rfl⟩
  · rintro ⟨⟨t, ht, _, hc, rfl, rfl⟩, ⟨_, -, rfl⟩, ⟨_, -, rfl⟩, -⟩
    exact ⟨t, ht, _, ⟨(), hc, rfl⟩, _, ⟨(), hc, rfl⟩, _, ⟨(), hc, rfl⟩, rfl, ⟨rfl, rfl⟩, rfl⟩

/-- **C140** The balances that a trader reports are those that it reports without texts — output token, first and second token of the
pair, in this order —, each beside the symbol that the token itself answers. -/
theorem C140_trader_balances {T : Addr} {r : List (String × Int)} :
    queryBalancesN w n T = .ok r ↔ ∃ q so sa sb, queryBalances w T = .ok q ∧ tokenSymbol w n q.output.1 = .ok so ∧
      tokenSymbol w n q.assetA.1 = .ok sa ∧ tokenSymbol w n q.assetB.1 = .ok sb ∧
      r = [(so, q.output.2), (sa, q.assetA.2), (sb, q.assetB.2)] := by
  simp only [queryBalancesN, queryBalances, assetOf, tokenSymbol, tokenBalance, bind_ok, ok_inj, expect_ok]
  constructor
  · rintro ⟨t, ht, _, ⟨_, ⟨_, ho, rfl⟩, _, ⟨_, -, rfl⟩, rfl⟩, _, ⟨_, ⟨_, ha, rfl⟩, _, ⟨_, -, rfl⟩, rfl⟩, _,
      ⟨_, ⟨_, hb, rfl⟩, _, ⟨_, -, rfl⟩, rfl⟩, rfl⟩
    exact ⟨_, _, _, _, ⟨t, ht, _, ⟨(), ho, rfl⟩, _, ⟨(), ha, rfl⟩, _, ⟨(), hb, rfl⟩, rfl⟩, ⟨(), ho, rfl⟩, ⟨(), ha, rfl⟩,
      ⟨(), hb, rfl⟩, rfl⟩
  · rintro ⟨q, so, sa, sb, ⟨t, ht, _, ⟨_, ho, rfl⟩, _, ⟨_, ha, rfl⟩, _, ⟨_, hb, rfl⟩, rfl⟩, ⟨_, -, rfl⟩, ⟨_, -, rfl⟩, ⟨_, -, rfl⟩, rfl⟩
    exact ⟨t, ht, _, ⟨_, ⟨(), ho, rfl⟩, _, ⟨(), ho, rfl⟩, rfl⟩, _, ⟨_, ⟨(), ha, rfl⟩, _, ⟨(), ha, rfl⟩, rfl⟩, _,
      ⟨_, ⟨(), hb, rfl⟩, _, ⟨(), hb, rfl⟩, rfl⟩, rfl⟩

/-- The token of a vesting contract never changes. -/
theorem step_vest_token {k : Call} (I : Inv h acct w) (hc : Signed acct c) (hi : c.invoker = none)
    (e : step h w c k = .ok w') {A : Addr} {v : Vesting.State} (hv : w.vest A = some v) :
    ∃ u, w'.vest A = some u ∧ u.token = v.token := by
  have hA := I.refs.vest A v hv
  by_cases ht : Touches w k A
  · obtain ⟨k, rfl⟩ := touch_vest I e hA ht
    have hf := I.core.auth_false hc (P := A) (by rw [hA]; simp) (by rw [hi]; simp)
    have At := I.core.at_ A (I.core.contracts A (by rw [hA]; simp))
    cases k with
    | mint a x =>
      simp only [step, bind_ok, ok_inj, expect_ok] at e
      obtain ⟨_, h1, v', hv', _, ht, s, h2, rfl⟩ := e
      obtain ⟨u, hu⟩ := Vesting.step_eff h2 hf At.vest hv
      exact ⟨u, by simp only [upd_same, hu.vest'], hu.token⟩
    | _ =>
      simp only [step, bind_ok, ok_inj, expect_ok] at e
      obtain ⟨_, h1, s, h2, rfl⟩ := e
      obtain ⟨u, hu⟩ := Vesting.step_eff h2 hf At.vest hv
      exact ⟨u, by simp only [upd_same, hu.vest'], hu.token⟩
  · have s := step_same e ht
    exact ⟨v, by rw [s.vest, hv], rfl⟩

theorem vest_run (hh : HostOK h acct) {V : Addr} {a : Addr × TokenInfo} : ∀ (ts : List TxN) {s : World × Names},
    Inv h acct s.1 → (∀ t ∈ calls ts, Possible acct t) → queryTokenInfo s.1 s.2 V = .ok a →
    queryTokenInfo (runN h s ts).1 (runN h s ts).2 V = .ok a
  | [], s, _, _, e => e
  | t :: ts, s, I, hp, e => by
    have ht : Possible acct t.tx := hp _ (by simp [calls])
    have I' : Inv h acct (execN h s t).1 := by rw [execN_eq]; exact (exec_inv hh I ht).1
    refine vest_run hh ts I' (fun u hu => hp u (by simp [calls] at hu ⊢; exact Or.inr hu)) ?_
    obtain ⟨w, n⟩ := s
    unfold execN
    split
    · rename_i r e1
      obtain ⟨w', n'⟩ := r
      have e' := stepN_step e1
      simp only [queryTokenInfo, bind_ok, ok_inj, expect_ok, Vesting.loaded_ok] at e ⊢
      obtain ⟨_, hc, v, hv, rfl⟩ := e
      obtain ⟨u, hu, hut⟩ := step_vest_token I ht.2 ht.1 e' hv
      exact ⟨(), (step_code e' (by rw [hc]; simp)).trans hc, u, hu, by rw [hut, vest_kept e1 hv]⟩
    · exact e

/-- **C140** And so is what a vesting contract says about its token: its address, name, symbol and decimals. -/
theorem C140_vesting_for_ever (hh : HostOK h acct) (g : Genesis acct w0) {n0 : Names} {ts us : List TxN}
    (hp : ∀ t ∈ calls (ts ++ us), Possible acct t) {V : Addr} {a : Addr × TokenInfo}
    (e : queryTokenInfo (runN h (w0, n0) ts).1 (runN h (w0, n0) ts).2 V = .ok a) :
    queryTokenInfo (runN h (w0, n0) (ts ++ us)).1 (runN h (w0, n0) (ts ++ us)).2 V = .ok a := by
  have hr : runN h (w0, n0) (ts ++ us) = runN h (runN h (w0, n0) ts) us := by unfold runN; rw [List.foldl_append]
  rw [hr]
  refine vest_run hh us ?_ (fun t ht => hp t (by simp only [calls, List.map_append, List.mem_append] at ht ⊢; exact Or.inr ht)) e
  rw [C140_texts_change_nothing]
  exact (run_inv hh (Phoenix.World.genesis_inv (h := h) g)
    (fun t ht => hp t (by simp only [calls, List.map_append, List.mem_append] at ht ⊢; exact Or.inl ht))).1

theorem initXyk_named {P owner : Addr} {i : Info} {dec : Nat} {sl mf : Int}
    (e : initXyk h w P i owner dec sl mf = .ok w') (hP : w.code P = .xyk) :
    ∃ d, poolInfo w' P = .ok d ∧ d.share.1 = h.shareAddr P i.tokenA i.tokenB ∧ w'.code d.share.1 = .token ∧
      (w'.led d.share.1).decimals = dec := by
  simp only [initXyk, bind_ok, ok_inj, deploy_ok, Prod.exists] at e
  obtain ⟨p, L', hi, w1, ⟨hS, rfl⟩, w2, ⟨hK, rfl⟩, st, hst, rfl⟩ := e
  simp only [Pool.init, Token.construct, bind_ok, ok_inj, req_ok, Prod.mk.injEq] at hi
  obtain ⟨_, _, _, _, _, _, _, _, _, _, _, _, _, _, _, _, _, _, t, ⟨_, _, rfl⟩, _, _, _, _, _, _, rfl, rfl⟩ := hi
  have h1 : P ≠ h.shareAddr P i.tokenA i.tokenB := fun q => by rw [← q, hP] at hS; cases hS
  have h2 : P ≠ h.stakeAddr P := fun q => by
    simp only at hK
    rw [← q, upd_ne _ _ h1, hP] at hK; cases hK
  have h3 : h.shareAddr P i.tokenA i.tokenB ≠ h.stakeAddr P := fun q => by
    simp only at hK
    rw [← q, upd_same] at hK; cases hK
  refine ⟨_, by simp only [poolInfo, upd_ne _ _ h1, upd_ne _ _ h2, hP, upd_same, Pool.loaded]; rfl, rfl, ?_, ?_⟩
  · simp only [upd_ne _ _ h3, upd_same]
  · simp only [upd_same]

theorem initStable_named {P owner : Addr} {i : Info} {amp : Nat} {mf : Int}
    (e : initStable h w c P i owner amp mf = .ok w') (hP : w.code P = .stable) :
    ∃ d, poolInfo w' P = .ok d ∧ d.share.1 = h.shareAddr P i.tokenA i.tokenB ∧ w'.code d.share.1 = .token ∧
      (w'.led d.share.1).decimals = max (w.led i.tokenA).decimals (w.led i.tokenB).decimals := by
  simp only [initStable, bind_ok, ok_inj, deploy_ok, Prod.exists] at e
  obtain ⟨_, _, _, _, p, L', hi, w1, ⟨hS, rfl⟩, w2, ⟨hK, rfl⟩, st, hst, rfl⟩ := e
  simp only [Stable.init, Token.construct, bind_ok, ok_inj, req_ok, Prod.mk.injEq] at hi
  obtain ⟨_, _, _, _, _, _, _, _, _, _, _, _, _, _, _, _, t, ⟨_, _, rfl⟩, _, _, _, _, _, _, _, _, _, _, rfl, rfl⟩ := hi
  have h1 : P ≠ h.shareAddr P i.tokenA i.tokenB := fun q => by rw [← q, hP] at hS; cases hS
  have h2 : P ≠ h.stakeAddr P := fun q => by
    simp only at hK
    rw [← q, upd_ne _ _ h1, hP] at hK; cases hK
  have h3 : h.shareAddr P i.tokenA i.tokenB ≠ h.stakeAddr P := fun q => by
    simp only at hK
    rw [← q, upd_same] at hK; cases hK
  refine ⟨_, by simp only [poolInfo, upd_ne _ _ h1, upd_ne _ _ h2, hP, upd_same, Stable.loaded]; rfl, rfl, ?_, ?_⟩
  · simp only [upd_ne _ _ h3, upd_same]
  · simp only [upd_same]

/-- **C140** The share token of a pool has the name and the symbol given when the pool is created.  It has the decimals that the
factory was set up with if the pool is a standard one, and as many as the token of the pair with more of them if it is a stable one.
Nothing else is renamed. -/
theorem C140_share_token_named {h : Host} {w w' : World} {n n' : Names} {c : Ctx} {t : Texts} {F sender : Addr} {i : Info} {k : Kind}
    {amp : Option Nat} {sl mf : Int} (e : stepN h w n c t (.create F sender i k amp sl mf) = .ok (w', n')) :
    ∃ f P d, w.fac F = some f ∧ queryPools w' F = .ok (f.pools ++ [P]) ∧ poolDetails w' P = .ok d ∧
      tokenName w' n' d.share.1 = .ok t.label.name ∧ tokenSymbol w' n' d.share.1 = .ok t.label.symbol ∧
      tokenDecimals w' d.share.1 = .ok (shareDecimals f.lpDecimals (w.led i.tokenA).decimals (w.led i.tokenB).decimals k) ∧
      (∀ x, x ≠ d.share.1 → n'.token x = n.token x) ∧ n'.trader = n.trader ∧ n'.vest = n.vest := by
  simp only [stepN, bind_ok, ok_inj, Prod.exists, Prod.mk.injEq, expect_ok] at e
  obtain ⟨_, hF, w1, P, h1, rfl, rfl⟩ := e
  simp only [create, bind_ok, ok_inj, deploy_ok, Prod.mk.injEq] at h1
  obtain ⟨_, _, _, _, f, hf, _, _, _, _, w1, ⟨hP, rfl⟩, _, _, _, _, _, _, _, _, _, _, _, _, w2, h2, rfl, rfl⟩ := h1
  have key : ∃ d, poolInfo w2 (h.poolAddr F i.tokenA i.tokenB) = .ok d ∧
      d.share.1 = h.shareAddr (h.poolAddr F i.tokenA i.tokenB) i.tokenA i.tokenB ∧ w2.code d.share.1 = .token ∧
      (w2.led d.share.1).decimals = (shareDecimals f.lpDecimals (w.led i.tokenA).decimals (w.led i.tokenB).decimals k) := by
    cases k with
    | xyk => exact initXyk_named h2 (upd_same _ _ _)
    | stable =>
      have h3 : initStable h { w with code := upd w.code (h.poolAddr F i.tokenA i.tokenB) .stable } (c.as F)
        (h.poolAddr F i.tokenA i.tokenB) i F (amp.getD 0) mf = .ok w2 := h2
      have h4 := initStable_named h3 (upd_same _ _ _)
      exact h4
  have hF2 : w2.code F = .factory := by
    have hne : F ≠ h.poolAddr F i.tokenA i.tokenB := fun q => by rw [← q, hF] at hP; cases hP
    have hF1 : upd w.code (h.poolAddr F i.tokenA i.tokenB) k.code F = .factory := by rw [upd_ne _ _ hne]; exact hF
    cases k with
    | xyk => exact (initXyk_code h2 (by simp only [hF1]; simp)).trans hF1
    | stable => exact (initStable_code h2 (by simp only [hF1]; simp)).trans hF1
  obtain ⟨d, k1, k2, k3, k4⟩ := key
  refine ⟨f, _, d, fac_loaded hf, ?_, k1, ?_, ?_, ?_, fun x hx => ?_, rfl, rfl⟩
  · simp only [queryPools, bind_ok, expect_ok]
    exact ⟨(), hF2, _, by rw [upd_same]; rfl, rfl⟩
  · simp only [tokenName, bind_ok, expect_ok, ok_inj]
    exact ⟨(), k3, by rw [k2]; simp only [Names.share, upd_same]⟩
  · simp only [tokenSymbol, bind_ok, expect_ok, ok_inj]
    exact ⟨(), k3, by rw [k2]; simp only [Names.share, upd_same]⟩
  · simp only [tokenDecimals, bind_ok, expect_ok, ok_inj]
    exact ⟨(), k3, k4⟩
  · exact upd_ne _ _ (k2 ▸ hx)

/-! ### The router's labels -/

theorem quoteN_ext {q q' : QuoteN} (h1 : unlabelled q = unlabelled q') (h2 : labels q = labels q') : q = q' := by
  obtain ⟨a, l, s⟩ := q
  obtain ⟨a', l', s'⟩ := q'
  simp only [unlabelled, Quote.mk.injEq, labels] at h1 h2
  obtain ⟨rfl, h3, rfl⟩ := h1
  have : l = l' := by
    rw [← List.zip_unzip l, ← List.zip_unzip l']
    simp only [List.unzip_eq_map, h2, h3]
  rw [this]

theorem tokenSymbol_ok {tok : Addr} {x : String} : tokenSymbol w n tok = .ok x ↔ w.code tok = .token ∧ (n.token tok).symbol = x := by
  simp only [tokenSymbol, bind_ok, ok_inj, expect_ok]
  exact ⟨fun ⟨_, a, b⟩ => ⟨a, b⟩, fun ⟨a, b⟩ => ⟨(), a, b⟩⟩

theorem simLoopN_ok {now : Nat} {F : Addr} : ∀ {ops : List Multihop.Op} {x : Int} {q q' : QuoteN},
    simLoopN w n now F ops x q = .ok q' ↔ simLoop w now F ops x (unlabelled q) = .ok (unlabelled q') ∧
      (∀ op ∈ ops, w.code op.offer = .token) ∧ labels q' = labels q ++ ops.map fun op => (n.token op.offer).symbol
  | [], x, q, q' => by
    simp only [simLoopN, simLoop, ok_inj, List.not_mem_nil, false_implies, implies_true, true_and, List.map_nil, List.append_nil]
    exact ⟨fun k => k ▸ ⟨rfl, rfl⟩, fun k => quoteN_ext k.1 k.2.symm⟩
  | op :: ops, x, q, q' => by
    simp only [simLoopN, simLoop, bind_ok, Prod.exists, tokenSymbol_ok, simLoopN_ok (ops := ops)]
    simp only [unlabelled, labels, List.map_append, List.map_cons, List.map_nil, List.mem_cons, forall_eq_or_imp, List.append_assoc,
      List.cons_append, List.nil_append]
    constructor
    · rintro ⟨P, hP, a, com, sp, h1, s, ⟨h2, rfl⟩, h3, h4, h5⟩
      exact ⟨⟨P, hP, a, com, sp, h1, h3⟩, ⟨h2, h4⟩, h5⟩
    · rintro ⟨⟨P, hP, a, com, sp, h1, h3⟩, ⟨h2, h4⟩, h5⟩
      exact ⟨P, hP, a, com, sp, h1, _, ⟨h2, rfl⟩, h3, h4, h5⟩

theorem revLoopN_ok {now : Nat} {F : Addr} : ∀ {ops : List Multihop.Op} {x : Int} {q q' : QuoteN},
    revLoopN w n now F ops x q = .ok q' ↔ revLoop w now F ops x (unlabelled q) = .ok (unlabelled q') ∧
      (∀ op ∈ ops, w.code op.ask = .token) ∧ labels q' = labels q ++ ops.map fun op => (n.token op.ask).symbol
  | [], x, q, q' => by
    simp only [revLoopN, revLoop, ok_inj, List.not_mem_nil, false_implies, implies_true, true_and, List.map_nil, List.append_nil]
    exact ⟨fun k => k ▸ ⟨rfl, rfl⟩, fun k => quoteN_ext k.1 k.2.symm⟩
  | op :: ops, x, q, q' => by
    simp only [revLoopN, revLoop, bind_ok, Prod.exists, tokenSymbol_ok, revLoopN_ok (ops := ops)]
    simp only [unlabelled, labels, List.map_append, List.map_cons, List.map_nil, List.mem_cons, forall_eq_or_imp, List.append_assoc,
      List.cons_append, List.nil_append]
    constructor
    · rintro ⟨P, hP, a, com, sp, h1, s, ⟨h2, rfl⟩, h3, h4, h5⟩
      exact ⟨⟨P, hP, a, com, sp, h1, h3⟩, ⟨h2, h4⟩, h5⟩
    · rintro ⟨⟨P, hP, a, com, sp, h1, h3⟩, ⟨h2, h4⟩, h5⟩
      exact ⟨P, hP, a, com, sp, h1, _, ⟨h2, rfl⟩, h3, h4, h5⟩

/-- **C140** The router answers a quote with labels exactly when it answers the numbers and every offered asset is a token; the
labels are the symbols of the offered assets, in order. -/
theorem C140_quote_labels {now : Nat} {H : Addr} {ops : List Multihop.Op} {x : Int} {q : QuoteN} :
    hopSimulateN w n now H ops x = .ok q ↔ hopSimulate w now H ops x = .ok (unlabelled q) ∧
      (∀ op ∈ ops, w.code op.offer = .token) ∧ labels q = ops.map fun op => (n.token op.offer).symbol := by
  simp only [hopSimulateN, hopSimulate, bind_ok, simLoopN_ok]
  constructor
  · rintro ⟨u, hu, v, hv, m, hm, h1, h2, h3⟩; exact ⟨⟨u, hu, v, hv, m, hm, h1⟩, h2, h3⟩
  · rintro ⟨⟨u, hu, v, hv, m, hm, h1⟩, h2, h3⟩; exact ⟨u, hu, v, hv, m, hm, h1, h2, h3⟩

/-- **C140** The same for a reverse quote, whose labels are the symbols of the assets asked for. -/
theorem C140_reverse_quote_labels {now : Nat} {H : Addr} {ops : List Multihop.Op} {x : Int} {q : QuoteN} :
    hopSimulateReverseN w n now H ops x = .ok q ↔ hopSimulateReverse w now H ops x = .ok (unlabelled q) ∧
      (∀ op ∈ ops, w.code op.ask = .token) ∧ labels q = ops.map fun op => (n.token op.ask).symbol := by
  simp only [hopSimulateReverseN, hopSimulateReverse, bind_ok, revLoopN_ok]
  constructor
  · rintro ⟨u, hu, v, hv, m, hm, h1, h2, h3⟩; exact ⟨⟨u, hu, v, hv, m, hm, h1⟩, h2, h3⟩
  · rintro ⟨⟨u, hu, v, hv, m, hm, h1⟩, h2, h3⟩; exact ⟨u, hu, v, hv, m, hm, h1, h2, h3⟩

/-- **C140** What the labels of a quote mean: for a route that succeeds and uses no pool twice, the amounts of the quoted commissions
are the fees that the hops pay, and each stands beside the symbol of the token that the hop takes in — although the fee is paid in
the token that the hop pays out. -/
theorem C140_labels_of_a_route (hh : HostOK h acct) (g : Genesis acct w0) {ts : List Tx} (hp : ∀ t ∈ ts, Possible acct t)
    (hw : w = run h w0 ts) (n : Names) {H r : Addr} {ops : List Multihop.Op} {sp mf : Option Int} {dl : Option Nat}
    {amount out : Int} (hc : Possible acct ⟨c, .hopSwap H r ops sp amount dl mf⟩)
    (e : hopSwap w c H r ops sp amount dl mf = .ok (w', out))
    (once : ∀ m, w.hop H = some m → (ops.map (fun op => findPool w m.factory op.offer op.ask)).Nodup)
    {q : QuoteN} (hq : hopSimulateN w n c.now H ops amount = .ok q) :
    q.amount = out ∧ ∃ legs : List Leg, Passes amount legs out ∧
      Settles w.led w'.led (legs.flatMap fun l =>
        [⟨l.offer, r, l.pool, l.inp⟩, ⟨l.ask, l.pool, r, l.out⟩, ⟨l.ask, l.pool, l.feeTo, l.fee⟩]) ∧
      q.commissions = legs.map fun l => ((n.token l.offer).symbol, l.fee) := by
  subst hw
  obtain ⟨I, -⟩ := run_inv hh (Phoenix.World.genesis_inv (h := h) g) hp
  obtain ⟨h1, h2, h3, m, hm, hl⟩ := Multihop.hopSwap_ok.mp e
  have hs : c.signed r = true := by
    have hi : c.invoker = none := hc.1
    simpa [Ctx.auth, hi] using h3
  rw [hopLoop_as hs] at hl
  obtain ⟨legs, a1, a2, a3, a4, a5, a6⟩ := hopLoop_legs I hc.2 hc.1 hl
  obtain ⟨spreads, k⟩ := a6 (once m hm) ⟨0, [], []⟩
  obtain ⟨k1, -, k3⟩ := C140_quote_labels.mp hq
  have k2 : hopSimulate (run h w0 ts) c.now H ops amount = .ok ⟨if ops = [] then 0 else out, [] ++ legs.map (·.fee), [] ++ spreads⟩ := by
    unfold hopSimulate
    simp only [bind_ok, req_ok, Multihop.hop_loaded]
    exact ⟨(), h1, (), Multihop.verify_ok.mpr h2, m, hm, k⟩
  rw [k2, Except.ok.injEq, if_neg h1] at k1
  simp only [unlabelled, Quote.mk.injEq, List.nil_append] at k1
  refine ⟨k1.1.symm, legs, a2, a3, ?_⟩
  have k4 : labels q = legs.map fun l => (n.token l.offer).symbol := by
    rw [k3]
    have go : ∀ {os : List Multihop.Op} {ls : List Leg}, List.Forall₂ (Serves (run h w0 ts) m.factory) os ls →
        os.map (fun op => (n.token op.offer).symbol) = ls.map fun l => (n.token l.offer).symbol := by
      intro os ls k
      induction k with
      | nil => rfl
      | cons a b ih => simp only [List.map_cons, ih, a.1]
    exact go a1
  have k5 := k1.2.1
  rw [← List.zip_unzip q.commissions, List.unzip_eq_map]
  show List.zip (labels q) _ = _
  rw [k4, ← k5, List.zip_map']

/-! ### Examples -/

/-- The texts of three tokens. -/
def exNames : Names :=
  ⟨fun t => if t = 20 then ⟨"Token A", "AAA"⟩ else if t = 21 then ⟨"Token B", "BBB"⟩ else if t = 22 then ⟨"Token C", "CCC"⟩ else ⟨"", ""⟩,
    fun _ => "", fun _ => ⟨⟨"", ""⟩, 0⟩⟩

/-- No texts. -/
def exPlain (t : Tx) : TxN := ⟨t, ⟨⟨"", ""⟩, "", 0⟩⟩

/-- The set-up of the example with names for the two share tokens, a trader and a vesting contract. -/
def exTxs : List TxN :=
  (Example.setup ++ Example.liquidity).map (fun t => ⟨t, ⟨⟨"Share", "SHR"⟩, "", 0⟩⟩) ++
  [⟨⟨Example.by' 8, .trdInit 60 8 20 21 22⟩, ⟨⟨"", ""⟩, "Trader", 0⟩⟩,
   ⟨⟨Example.by' 8, .vest 70 (.init 8 20 10 none)⟩, ⟨⟨"Other", "XXX"⟩, "", 3⟩⟩,
   ⟨⟨Example.by' 8, .trdInit 60 8 20 21 22⟩, ⟨⟨"", ""⟩, "Renamed", 0⟩⟩,
   ⟨⟨Example.by' 8, .vest 70 (.init 8 20 10 none)⟩, ⟨⟨"Other", "YYY"⟩, "", 4⟩⟩]

theorem exTxs_possible : ∀ t ∈ calls exTxs, Possible Example.acct t := by
  intro t ht
  simp only [calls, exTxs, List.map_append, List.map_map, List.mem_append] at ht
  rcases ht with ht | ht
  · exact World.ex_setup t (by
      simp only [List.mem_append, List.mem_map, Function.comp] at ht ⊢
      rcases ht with ⟨a, ha, rfl⟩ | ⟨a, ha, rfl⟩
      · exact Or.inl ha
      · exact Or.inr ha)
  · simp only [List.map_cons, List.map_nil, List.mem_cons, List.not_mem_nil, or_false] at ht
    rcases ht with rfl | rfl | rfl | rfl <;> exact World.possible_by (by decide)

/-- State and texts at the end of the example. -/
def exEnd : World × Names := runN Example.host (Example.start, exNames) exTxs

/-- Names are given once; later attempts to give others change nothing. -/
example : (tokenName exEnd.1 exEnd.2 20 = .ok "Token A" ∧ tokenSymbol exEnd.1 exEnd.2 20 = .ok "AAA" ∧ tokenDecimals exEnd.1 20 = .ok 7) ∧
    queryContractName exEnd.1 exEnd.2 60 = .ok "Trader" ∧
    queryTokenInfo exEnd.1 exEnd.2 70 = .ok (20, ⟨⟨"Other", "XXX"⟩, 3⟩) ∧
    queryOutputTokenN exEnd.1 exEnd.2 60 = .ok (22, ⟨"Token C", "CCC"⟩, 7) ∧
    queryBalancesN exEnd.1 exEnd.2 60 = .ok [("CCC", 0), ("AAA", 0), ("BBB", 0)] := by decide +kernel

/-- A pool is created with a share token named as asked. -/
example : (stepN Example.host (run Example.host Example.start (Example.setup.take 2)) exNames (Example.by' 8)
    ⟨⟨"Share", "SHR"⟩, "", 0⟩ (.create 50 8 (Example.info 20 21) .xyk none 100 1000)).isOk = true := by decide +kernel

/-- **C140** Nobody checks what a vesting contract says about its token: it can be set up with a name, a symbol and decimals that the
token does not have. -/
theorem C140_vesting_unchecked : ∃ (h : Host) (acct : Accounts) (w0 : World) (n0 : Names) (ts : List TxN), HostOK h acct ∧
    Genesis acct w0 ∧ (∀ t ∈ calls ts, Possible acct t) ∧ ∃ V tok i, queryTokenInfo (runN h (w0, n0) ts).1 (runN h (w0, n0) ts).2 V = .ok (tok, i) ∧
      tokenName (runN h (w0, n0) ts).1 (runN h (w0, n0) ts).2 tok ≠ .ok i.label.name ∧
      tokenSymbol (runN h (w0, n0) ts).1 (runN h (w0, n0) ts).2 tok ≠ .ok i.label.symbol ∧
      tokenDecimals (runN h (w0, n0) ts).1 tok ≠ .ok i.decimals := by
  refine ⟨Example.host, Example.acct, Example.start, exNames, exTxs, World.ex_host, World.ex_genesis, exTxs_possible, 70, 20,
    ⟨⟨"Other", "XXX"⟩, 3⟩, ?_, ?_, ?_, ?_⟩ <;> decide +kernel

/-- **C140** A symbol does not tell tokens apart: the share tokens of two pools can have the same name and symbol. -/
theorem C140_symbols_not_unique : ∃ (h : Host) (acct : Accounts) (w0 : World) (n0 : Names) (ts : List TxN), HostOK h acct ∧
    Genesis acct w0 ∧ (∀ t ∈ calls ts, Possible acct t) ∧ ∃ P Q d f x y, P ≠ Q ∧
      poolDetails (runN h (w0, n0) ts).1 P = .ok d ∧ poolDetails (runN h (w0, n0) ts).1 Q = .ok f ∧ d.share.1 ≠ f.share.1 ∧
      tokenName (runN h (w0, n0) ts).1 (runN h (w0, n0) ts).2 d.share.1 = .ok x ∧
      tokenName (runN h (w0, n0) ts).1 (runN h (w0, n0) ts).2 f.share.1 = .ok x ∧
      tokenSymbol (runN h (w0, n0) ts).1 (runN h (w0, n0) ts).2 d.share.1 = .ok y ∧
      tokenSymbol (runN h (w0, n0) ts).1 (runN h (w0, n0) ts).2 f.share.1 = .ok y := by
  obtain ⟨d, hd, kd⟩ := exists_of_okAnd (x := poolDetails exEnd.1 Example.pool1)
    (P := fun d => decide (d.share.1 = 602021 + 20 + 21 + 10000000)) (by decide +kernel)
  obtain ⟨f, hf, kf⟩ := exists_of_okAnd (x := poolDetails exEnd.1 Example.pool2)
    (P := fun d => decide (d.share.1 = 602122 + 21 + 22 + 10000000)) (by decide +kernel)
  simp only [decide_eq_true_eq] at kd kf
  refine ⟨Example.host, Example.acct, Example.start, exNames, exTxs, World.ex_host, World.ex_genesis, exTxs_possible, Example.pool1,
    Example.pool2, d, f, "Share", "SHR", by decide, hd, hf, ?_, ?_, ?_, ?_, ?_⟩
  · rw [kd, kf]; decide
  all_goals first | rw [kd] | rw [kf]
  all_goals decide +kernel

/-- **C140** So the label of a commission can name a token in which no commission is paid: here a route from AAA over BBB to CCC is quoted
with commissions of 5 AAA and 5 BBB, but the recipient of the fees gets 5 BBB and 5 CCC. -/
theorem C140_label_is_not_the_token_paid : ∃ (h : Host) (acct : Accounts) (w0 : World) (n : Names) (ts : List Tx), HostOK h acct ∧
    Genesis acct w0 ∧ (∀ t ∈ ts, Possible acct t) ∧ ∃ (c : Ctx) (H r feeTo : Addr) (ops : List Multihop.Op) (w' : World) (out : Int),
      Possible acct ⟨c, .hopSwap H r ops none 1000 none none⟩ ∧
      hopSwap (run h w0 ts) c H r ops none 1000 none none = .ok (w', out) ∧
      hopSimulateN (run h w0 ts) n c.now H ops 1000 = .ok ⟨out, [("AAA", 5), ("BBB", 5)], [1, 0]⟩ ∧
      tokenSymbol (run h w0 ts) n 20 = .ok "AAA" ∧ tokenSymbol (run h w0 ts) n 21 = .ok "BBB" ∧
      tokenSymbol (run h w0 ts) n 22 = .ok "CCC" ∧
      [20, 21, 22].map (fun t => w'.led.bal t feeTo - (run h w0 ts).led.bal t feeTo) = [0, 5, 5] := by
  obtain ⟨q, h1, h2⟩ := exists_of_okAnd (x := hopSwap Multihop.exW (Example.by' 2) Example.router 2
    [⟨21, 20, some 1990⟩, ⟨22, 21, some 1980⟩] none 1000 none none)
    (P := fun q => q.2 == 1989 && decide ([20, 21, 22].map (fun t => q.1.led.bal t 7 - Multihop.exW.led.bal t 7) = [0, 5, 5]))
    (by decide +kernel)
  simp only [Bool.and_eq_true, beq_iff_eq, decide_eq_true_eq] at h2
  refine ⟨Example.host, Example.acct, Example.start, exNames, Example.setup ++ Example.liquidity, World.ex_host, World.ex_genesis,
    World.ex_setup, Example.by' 2, Example.router, 2, 7, [⟨21, 20, some 1990⟩, ⟨22, 21, some 1980⟩], q.1, 1989,
    World.possible_by (by decide), ?_, ?_, ?_, ?_, ?_, h2.2⟩
  · rw [← h2.1]; exact h1
  all_goals decide +kernel

/-- Quotes each way, with labels. -/
example : (hopSimulateN Multihop.exW exNames 10 Example.router [⟨21, 20, none⟩, ⟨22, 21, none⟩] 1000).isOk = true ∧
    (hopSimulateReverseN Multihop.exW exNames 10 Example.router [⟨22, 21, none⟩, ⟨21, 20, none⟩] 1000).isOk = true := by decide +kernel

end Phoenix.Props.Names
