import Verif.Lemmas.Events
import Verif.Spec.Events
import Verif.Props.Token
import Verif.Props.PoolSys
/-!
Property theorems about the events: C97 (token) and C98 (constant product pool).
-/
namespace Phoenix.Props.Events
open Phoenix Spec

/-! ### C97: the token's log -/

theorem callE_ok {c : Ctx} {t t' : Token} {op : TokenOp} {ev : List TokenEvent} (h : t.callE c op = .ok (t', ev)) :
    t.call c op = .ok t' ∧ ev = t.events op := by
  simp only [Token.callE, bind_ok, ok_inj, Prod.mk.injEq] at h
  obtain ⟨_, h1, rfl, rfl⟩ := h
  exact ⟨h1, rfl⟩

theorem callE_error {c : Ctx} {t : Token} {op : TokenOp} {e : Err} (h : t.callE c op = .error e) : t.call c op = .error e := by
  unfold Token.callE at h
  cases k : t.call c op with
  | error e' => rw [k] at h; simpa [bind, Except.bind] using h
  | ok t' => rw [k] at h; cases h

theorem token_log_cons (t : Token) (k : Ctx × TokenOp) (ks : List (Ctx × TokenOp)) :
    (∃ t', t.call k.1 k.2 = .ok t' ∧ tokenExec t k = t' ∧ t.log (k :: ks) = t.events k.2 ++ t'.log ks) ∨
    (tokenExec t k = t ∧ t.log (k :: ks) = t.log ks) := by
  have l : t.log (k :: ks) = match t.callE k.1 k.2 with
    | .ok (t', ev) => ev ++ t'.log ks
    | .error _ => t.log ks := rfl
  rw [l]
  unfold tokenExec
  cases h : t.callE k.1 k.2 with
  | error e => rw [callE_error h]; exact .inr ⟨rfl, rfl⟩
  | ok q => obtain ⟨t', ev⟩ := q; obtain ⟨h1, rfl⟩ := callE_ok h; rw [h1]; exact .inl ⟨t', rfl, rfl, rfl⟩

theorem moves_events (t : Token) (op : TokenOp) (a : Addr) : ((t.events op).map (fun e => TokenEvent.moves e a)).sum = effect op a := by
  cases op <;> simp [Token.events, TokenEvent.moves, effect]

theorem balance_by_log (a : Addr) : ∀ (ks : List (Ctx × TokenOp)) (t : Token),
    (tokenRun t ks).bal a = t.bal a + balanceByLog (t.log ks) a
  | [], t => by simp [tokenRun, Token.log, balanceByLog]
  | k :: ks, t => by
    show (tokenRun (tokenExec t k) ks).bal a = _
    rcases token_log_cons t k ks with ⟨t', h1, h2, h3⟩ | ⟨h2, h3⟩
    · rw [h2, h3, balance_by_log a ks t', C21_exact_effect h1 a]
      simp only [balanceByLog, List.map_append, List.sum_append, moves_events]
      ring
    · rw [h2, h3]; exact balance_by_log a ks t

theorem admin_by_log : ∀ (ks : List (Ctx × TokenOp)) (t : Token), (tokenRun t ks).admin = adminByLog t.admin (t.log ks)
  | [], t => rfl
  | k :: ks, t => by
    show (tokenRun (tokenExec t k) ks).admin = _
    rcases token_log_cons t k ks with ⟨t', h1, h2, h3⟩ | ⟨h2, h3⟩
    rotate_left
    · rw [h2, h3]; exact admin_by_log ks t
    · rw [h2, h3, admin_by_log ks t']
      have keep : (∀ n, k.2 ≠ .setAdmin n) → t'.admin = t.admin := by
        intro hn
        obtain ⟨c, op⟩ := k
        cases op with
        | setAdmin n => exact absurd rfl (hn n)
        | mint d x => simp only [Token.call, Token.mint_ok] at h1; obtain ⟨_, _, _, rfl⟩ := h1; rfl
        | approve o s x e =>
          simp only [Token.call, Token.approve, Token.checkNonneg, bind_ok, requireAuth_ok, req_ok, Token.writeAllowance_ok] at h1
          obtain ⟨_, _, _, _, _, rfl⟩ := h1; rfl
        | transfer s d x => simp only [Token.call, Token.transfer_ok] at h1; obtain ⟨_, _, _, _, _, rfl⟩ := h1; rfl
        | transferFrom sp s d x =>
          simp only [Token.call, Token.transferFrom, Token.checkNonneg, bind_ok, requireAuth_ok, req_ok, Token.spend_ok, Token.receive_ok] at h1
          obtain ⟨_, _, _, _, t1, hsp, _, ⟨_, _, rfl⟩, _, rfl⟩ := h1
          exact (Token.spendAllowance_ok hsp).2.2.1
        | burn s x => simp only [Token.call, Token.burn_ok] at h1; obtain ⟨_, _, _, _, rfl⟩ := h1; rfl
        | burnFrom sp s x =>
          simp only [Token.call, Token.burnFrom, Token.checkNonneg, bind_ok, requireAuth_ok, req_ok, Token.spend_ok] at h1
          obtain ⟨_, _, _, _, t1, hsp, _, _, rfl⟩ := h1
          exact (Token.spendAllowance_ok hsp).2.2.1
      obtain ⟨c, op⟩ := k
      cases op with
      | setAdmin n =>
        simp only [Token.call, Token.setAdmin, bind_ok, requireAuth_ok, ok_inj] at h1
        obtain ⟨_, _, rfl⟩ := h1
        rfl
      | _ => rw [keep (fun n => by simp)]; rfl

/-- **C97** From a token's log of events alone one can compute every balance and the admin: for every
history of calls after the deployment, successful or not, the balance of every account is the sum of
what the events say, and the admin is the one named by the last event that changes it. -/
theorem C97_log_determines_balances {admin : Addr} {dec : Nat} {t0 : Token} (h0 : Token.construct admin dec = .ok t0)
    (ks : List (Ctx × TokenOp)) (a : Addr) :
    (tokenRun t0 ks).bal a = balanceByLog (t0.log ks) a ∧ (tokenRun t0 ks).admin = adminByLog admin (t0.log ks) := by
  simp only [Token.construct, bind_ok, req_ok, ok_inj] at h0
  obtain ⟨_, _, rfl⟩ := h0
  have b := balance_by_log a ks { admin := admin, decimals := dec, bal := fun _ => 0, allow := fun _ _ => ⟨0, 0⟩ }
  have c := admin_by_log ks { admin := admin, decimals := dec, bal := fun _ => 0, allow := fun _ _ => ⟨0, 0⟩ }
  simp only [zero_add] at b
  exact ⟨b, c⟩

/-- everybody signs -/
def all : Ctx := { now := 10, seq := 20, signed := fun _ => true }
/-- a new token -/
def tok0 : Token := { admin := 9, decimals := 7, bal := fun _ => 0, allow := fun _ _ => ⟨0, 0⟩ }
/-- 1 gets 100 and lets 5 spend 30 of it; then 10 move from 1 to 2, by 1's own transfer -/
def own : List (Ctx × TokenOp) := [(all, .mint 1 100), (all, .approve 1 5 30 50), (all, .transfer 1 2 10)]
/-- the same with a transfer by 5 -/
def spent : List (Ctx × TokenOp) := [(all, .mint 1 100), (all, .approve 1 5 30 50), (all, .transferFrom 5 1 2 10)]

example : Token.construct 9 7 = .ok tok0 := rfl
example : (tok0.log (own ++ [(all, .transfer 3 1 1), (all, .setAdmin 4), (all, .burn 2 3)])) =
    [.mint 9 1 100, .approve 1 5 30 50, .transfer 1 2 10, .setAdmin 9 4, .burn 2 3] := by decide +kernel

/-- **C97** The log does not determine the allowances: a transfer by the owner and one by the spender publish
the same event. -/
theorem C97_log_does_not_determine_allowances :
    tok0.log own = tok0.log spent ∧
    (tokenRun tok0 own).allowanceOf all 1 5 = 30 ∧ (tokenRun tok0 spent).allowanceOf all 1 5 = 20 := by decide +kernel

/-! ### C98: the pools' log -/

section pool
open Pool

/-- **C98** The events of a swap name what was really moved: the trader, the sold token and amount, which is also
the amount received, the bought token and the amount paid to the trader.  (A commission goes from the pool to the
fee recipient as well; it is not published.) -/
theorem C98_swap_events {me : Addr} {s s' : Sys} (h0 : Genesis me s) {ts : List Tx} (ht : ∀ t ∈ ts, Possible me t)
    {p : State} (hp : (run me s ts).pool = some p) {c : Ctx} (hself : c.auth me = false) {sender offer : Addr} {amount : Int}
    {mo ms mf : Option Int} {dl : Option Nat} {ev : List Event}
    (h : stepE me (run me s ts) (.pool c (.swap sender offer amount mo ms dl mf)) = .ok (s', ev)) :
    ∃ buy ret commission, said ev "swap" "sender" = some (.addr sender) ∧ said ev "swap" "sell_token" = some (.addr offer) ∧
      said ev "swap" "offer_amount" = some (.int amount) ∧ said ev "swap" "actual received amount" = some (.int amount) ∧
      said ev "swap" "buy_token" = some (.addr buy) ∧ said ev "swap" "return_amount" = some (.int ret) ∧
      said ev "swap" "referral_fee_amount" = some (.int 0) ∧ 0 ≤ ret ∧ 0 ≤ commission ∧
      Settles (run me s ts).led s'.led
        [⟨offer, sender, me, amount⟩, ⟨buy, me, sender, ret⟩, ⟨buy, me, p.cfg.feeRecipient, commission⟩] := by
  have hI := run_keeps ts ht (genesis_inv h0)
  have hP := hI.pool p hp
  generalize run me s ts = u at *
  simp only [stepE, hp, loaded, bind_ok, ok_inj, Prod.mk.injEq, Prod.exists] at h
  obtain ⟨_, rfl, p', L', ret, ev', h1, rfl, rfl⟩ := h
  have h2 := (ok_of_map (swap_eq me c p u.led sender offer amount mo ms dl mf)).mpr ⟨_, h1, rfl⟩
  obtain ⟨com, -, c1, c2, -, -, -, c3, -⟩ := C01_swap_exact h2 hself hP.distinct.1
  refine ⟨other p offer, ret, com, ?_⟩
  unfold swapE doSwapE at h1
  simp only [bind_ok, checkDeadline_ok, validatePos_some, requireAuth_ok, ok_inj, addI_ok, subI_ok] at h1
  obtain ⟨_, hd, _, hpos, _, hau, lim, hlim, ⟨x, y⟩, hs, rate, hrate, r, hr, _, hmo, g1, ⟨-, rfl⟩, g2,
    ⟨-, rfl⟩, _, hms, L1, hL1, rec, ⟨-, rfl⟩, L2, hL2, L3, hL3, q, hq, hout⟩ := h1
  simp only [Prod.mk.injEq] at hout
  obtain ⟨rfl, rfl, rfl, rfl⟩ := hout
  have href : r.referral = 0 := (computeSwap_inv hr).2.2.2.2.1
  obtain ⟨hpt, rfl, rfl, htok, hoth⟩ := sides_inv hs hP.distinct.1
  rw [htok] at hL1 ⊢
  have t1 := Ledger.transfer_inv hL1
  have hns := auth_ne hself hau
  have hrec : L1.bal offer me - u.led.bal offer me = amount := by
    rw [t1.2.2.2.1 offer me]
    simp [Flow.delta, hns]
  refine ⟨rfl, rfl, rfl, ?_, rfl, rfl, ?_, c2, c1, c3⟩
  · rw [hrec]; rfl
  · show some (Val.int r.referral) = _; rw [href]

/-- **C98** The events of a deposit name the depositor and, for both tokens, the amount that moved from the
depositor to the pool. -/
theorem C98_deposit_events {me : Addr} {s s' : Sys} (h0 : Genesis me s) {ts : List Tx} (ht : ∀ t ∈ ts, Possible me t)
    {p : State} (hp : (run me s ts).pool = some p) {c : Ctx} (hself : c.auth me = false) {sender : Addr}
    {dA mA dB mB cu : Option Int} {dl : Option Nat} {ev : List Event}
    (h : stepE me (run me s ts) (.pool c (.provide sender dA mA dB mB cu dl)) = .ok (s', ev)) :
    ∃ a b, said ev "provide_liquidity" "sender" = some (.addr sender) ∧
      said ev "provide_liquidity" "token_a" = some (.addr p.cfg.tokenA) ∧ said ev "provide_liquidity" "token_a-amount" = some (.int a) ∧
      said ev "provide_liquidity" "token_b" = some (.addr p.cfg.tokenB) ∧ said ev "provide_liquidity" "token_b-amount" = some (.int b) ∧
      ∀ t u, t ≠ p.cfg.shareToken → s'.led.bal t u = (run me s ts).led.bal t u +
        Flow.delta ⟨p.cfg.tokenA, sender, me, a⟩ t u + Flow.delta ⟨p.cfg.tokenB, sender, me, b⟩ t u := by
  have hI := run_keeps ts ht (genesis_inv h0)
  have hP := hI.pool p hp
  generalize run me s ts = u at *
  simp only [stepE, hp, loaded, bind_ok, ok_inj, Prod.mk.injEq, Prod.exists] at h
  obtain ⟨_, rfl, p', L', ev', h1, rfl, rfl⟩ := h
  have h2 := (ok_of_map (provide_eq me c p u.led sender dA mA dB mB cu dl)).mpr ⟨_, h1, rfl⟩
  obtain ⟨a, b, m, lock, -, -, -, hab, -, -, -, -, -, -, hset, -⟩ := provide_inv h2 hself hP.distinct
  refine ⟨a, b, ?_⟩
  unfold provideE at h1
  simp only [bind_ok, checkDeadline_ok, requireAuth_ok, ok_inj, subI_ok] at h1
  obtain ⟨_, hdl, _, -, _, -, _, -, _, -, _, hau, _, hsl, ⟨a', b'⟩, hch, L1, hL1, L2, hL2, _, ⟨-, rfl⟩, _, ⟨-, rfl⟩,
    ⟨n, p1, L3⟩, hn, m, ⟨-, rfl⟩, ⟨p2, L4⟩, hm, hout⟩ := h1
  simp only [Prod.mk.injEq] at hout
  obtain ⟨rfl, rfl, rfl⟩ := hout
  rw [hab] at hch
  simp only [ok_inj, Prod.mk.injEq] at hch
  obtain ⟨rfl, rfl⟩ := hch
  obtain ⟨hAB, hSA, hSB⟩ := hP.distinct
  have hns := auth_ne hself hau
  have t1 := Ledger.transfer_inv hL1
  have t2 := Ledger.transfer_inv hL2
  have eA : L2.bal p.cfg.tokenA me - u.led.bal p.cfg.tokenA me = a := by
    rw [t2.2.2.2.1, t1.2.2.2.1]; simp [Flow.delta, hns, Ne.symm hAB]
  have eB : L2.bal p.cfg.tokenB me - u.led.bal p.cfg.tokenB me = b := by
    rw [t2.2.2.2.1, t1.2.2.2.1]; simp [Flow.delta, hns, hAB]
  simp only [eA, eB]
  refine ⟨rfl, rfl, rfl, rfl, rfl, fun t v htv => ?_⟩
  simp only at hset
  rw [hset t v]
  simp [Ne.symm htv]

/-- **C98** The events of a withdrawal name the owner, the shares that were destroyed and the amounts of both tokens
that moved from the pool to the owner. -/
theorem C98_withdraw_events {me : Addr} {s s' : Sys} (h0 : Genesis me s) {ts : List Tx} (ht : ∀ t ∈ ts, Possible me t)
    {p : State} (hp : (run me s ts).pool = some p) {c : Ctx} (hself : c.auth me = false) {sender : Addr}
    {sh mA mB : Int} {dl : Option Nat} {ev : List Event}
    (h : stepE me (run me s ts) (.pool c (.withdraw sender sh mA mB dl)) = .ok (s', ev)) :
    ∃ a b, said ev "withdraw_liquidity" "sender" = some (.addr sender) ∧ said ev "withdraw_liquidity" "shares_amount" = some (.int sh) ∧
      said ev "withdraw_liquidity" "return_amount_a" = some (.int a) ∧ said ev "withdraw_liquidity" "return_amount_b" = some (.int b) ∧
      ∀ t u, s'.led.bal t u = (run me s ts).led.bal t u +
        Flow.delta ⟨p.cfg.tokenA, me, sender, a⟩ t u + Flow.delta ⟨p.cfg.tokenB, me, sender, b⟩ t u -
        (if p.cfg.shareToken = t ∧ sender = u then sh else 0) := by
  have hI := run_keeps ts ht (genesis_inv h0)
  have hP := hI.pool p hp
  generalize run me s ts = u at *
  simp only [stepE, hp, loaded, bind_ok, ok_inj, Prod.mk.injEq, Prod.exists] at h
  obtain ⟨_, rfl, p', L', ra, rb, ev', h1, rfl, rfl⟩ := h
  have h2 := (ok_of_map (withdraw_eq me c p u.led sender sh mA mB dl)).mpr ⟨_, h1, rfl⟩
  obtain ⟨-, -, -, -, -, -, -, -, -, -, -, -, -, h14, -⟩ := withdraw_inv h2 hself hP.distinct
  unfold withdrawE at h1
  simp only [bind_ok, ok_inj, Prod.mk.injEq, Prod.exists] at h1
  obtain ⟨_, _, _, _, _, rfl, rfl, rfl, rfl, rfl⟩ := h1
  exact ⟨_, _, rfl, rfl, rfl, rfl, h14⟩

/-- two deposits -/
def quiet : List Tx :=
  [ .pool (by' 8) (.init exInit),
    .pool (by' 1) (.provide 1 (some 1000000) none (some 2000000) none none none),
    .pool (by' 2) (.provide 2 (some 1000) none (some 2000) none none none) ]
/-- the same, but between them somebody sends both tokens to the pool, in the ratio of its reserves -/
def gift : List Tx :=
  [ .pool (by' 8) (.init exInit),
    .pool (by' 1) (.provide 1 (some 1000000) none (some 2000000) none none none),
    .token (by' 1) 10 (.transfer 1 100 50000), .token (by' 1) 11 (.transfer 1 100 100000),
    .pool (by' 2) (.provide 2 (some 1000) none (some 2000) none none none) ]

example : okAnd (stepE 100 (run 100 exStart quiet) (.pool (by' 2) (.swap 2 10 50000 none none none none)))
    (fun q => said q.2 "swap" "return_amount" == some (.int 94958)) = true ∧
  okAnd (stepE 100 (run 100 exStart quiet) (.pool (by' 2) (.provide 2 (some 500) none (some 1000) none none none)))
    (fun q => said q.2 "provide_liquidity" "token_b-amount" == some (.int 1000)) = true ∧
  okAnd (stepE 100 (run 100 exStart quiet) (.pool (by' 1) (.withdraw 1 1000 1 1 none)))
    (fun q => said q.2 "withdraw_liquidity" "return_amount_a" == some (.int 707)) = true := by decide +kernel

/-- **C98** The pool's log determines neither its reserves nor the number of its shares: two histories with the same
log of the pool end with different ones.  (Deposits publish neither the minted shares nor the tokens that had been sent to
the pool before, which they add to the reserves.) -/
theorem C98_log_does_not_determine_pool :
    Pool.log 100 exStart quiet = Pool.log 100 exStart gift ∧ (Pool.log 100 exStart quiet).length = 12 ∧
    (run 100 exStart quiet).pool.map (fun p => (p.total, p.resA, p.resB)) = some (1415627, 1001000, 2002000) ∧
    (run 100 exStart gift).pool.map (fun p => (p.total, p.resA, p.resB)) = some (1486337, 1051000, 2102000) := by
  decide +kernel

end pool

end Phoenix.Props.Events
