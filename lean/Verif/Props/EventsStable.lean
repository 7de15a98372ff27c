import Verif.Lemmas.Events
import Verif.Spec.Events
import Verif.Props.StableSys
/-!
Property theorems about the events of the stable pool: C98.
-/
namespace Phoenix.Props.EventsStable
open Phoenix Phoenix.Stable Phoenix.Stable.Spec
open Phoenix.Spec (Settles SameRights Flow Issues NoAllowance said)

/-- **C98** The same as `C98_swap_events` for the stable pool, which does not publish the received amount. -/
theorem C98_stable_swap_events {me : Addr} {s s' : Sys} (h0 : Genesis me s) {ts : List Tx} (ht : ∀ t ∈ ts, Possible me t)
    {p : State} (hp : (run me s ts).pool = some p) {c : Ctx} (hself : c.auth me = false) {sender offer : Addr} {amount : Int}
    {mo ms mf : Option Int} {dl : Option Nat} {ev : List Event}
    (h : stepE me (run me s ts) (.pool c (.swap sender offer amount mo ms dl mf)) = .ok (s', ev)) :
    ∃ buy ret commission, said ev "swap" "sender" = some (.addr sender) ∧ said ev "swap" "sell_token" = some (.addr offer) ∧
      said ev "swap" "offer_amount" = some (.int amount) ∧
      said ev "swap" "buy_token" = some (.addr buy) ∧ said ev "swap" "return_amount" = some (.int ret) ∧
      0 ≤ ret ∧ 0 ≤ commission ∧
      Settles (run me s ts).led s'.led
        [⟨offer, sender, me, amount⟩, ⟨buy, me, sender, ret⟩, ⟨buy, me, p.cfg.feeRecipient, commission⟩] := by
  have hI := run_keeps ts ht (genesis_inv h0)
  have hP := hI.pool p hp
  generalize run me s ts = u at *
  simp only [stepE, hp, loaded, bind_ok, ok_inj, Prod.mk.injEq, Prod.exists] at h
  obtain ⟨_, rfl, p', L', ret, ev', h1, rfl, rfl⟩ := h
  have h2 := (ok_of_map (swap_eq me c p u.led sender offer amount mo ms dl mf)).mpr ⟨_, h1, rfl⟩
  obtain ⟨lim, r, -, -, -, -, -, -, hsides, hq, e, -, -, -, hset, -⟩ := swap_inv h2 hself hP.distinct.1
  refine ⟨other p offer, ret, r.commission, ?_⟩
  unfold swapE doSwapE at h1
  simp only [bind_ok, checkDeadline_ok, validatePos_some, requireAuth_ok, ok_inj, addI_ok, subI_ok] at h1
  obtain ⟨_, hd, _, hpos, _, hau, lim, hlim, ⟨x, y⟩, hs, r', hr, _, hmo, g, ⟨-, rfl⟩, _, hms, L1, hL1, rec, ⟨-, rfl⟩,
    L2, hL2, L3, hL3, q, hq', hout⟩ := h1
  simp only [Prod.mk.injEq] at hout
  obtain ⟨rfl, rfl, rfl, rfl⟩ := hout
  rw [hsides] at hs
  simp only [ok_inj, Prod.mk.injEq] at hs
  obtain ⟨rfl, rfl⟩ := hs
  rw [hq, ok_inj] at hr
  subst hr
  exact ⟨rfl, rfl, rfl, rfl, rfl, (Ledger.transfer_inv hL2).2.1, (Ledger.transfer_inv hL3).2.1, hset⟩

/-- **C98** The same as `C98_deposit_events` for the stable pool. -/
theorem C98_stable_deposit_events {me : Addr} {s s' : Sys} (h0 : Genesis me s) {ts : List Tx} (ht : ∀ t ∈ ts, Possible me t)
    {p : State} (hp : (run me s ts).pool = some p) {c : Ctx} (hself : c.auth me = false) {sender : Addr}
    {a b : Int} {cu : Option Int} {dl ms : Option Nat} {ev : List Event}
    (h : stepE me (run me s ts) (.pool c (.provide sender a b cu dl ms)) = .ok (s', ev)) :
    said ev "provide_liquidity" "sender" = some (.addr sender) ∧
      said ev "provide_liquidity" "token_a" = some (.addr p.cfg.tokenA) ∧ said ev "provide_liquidity" "token_a-amount" = some (.int a) ∧
      said ev "provide_liquidity" "token_b" = some (.addr p.cfg.tokenB) ∧ said ev "provide_liquidity" "token_b-amount" = some (.int b) ∧
      ∀ t u, t ≠ p.cfg.shareToken → s'.led.bal t u = (run me s ts).led.bal t u +
        Flow.delta ⟨p.cfg.tokenA, sender, me, a⟩ t u + Flow.delta ⟨p.cfg.tokenB, sender, me, b⟩ t u := by
  have hI := run_keeps ts ht (genesis_inv h0)
  have hP := hI.pool p hp
  generalize run me s ts = u at *
  simp only [stepE, hp, loaded, bind_ok, ok_inj, Prod.mk.injEq, Prod.exists] at h
  obtain ⟨_, rfl, p', L', ev', h1, rfl, rfl⟩ := h
  have h2 := (ok_of_map (provide_eq me c p u.led sender a b cu dl ms)).mpr ⟨_, h1, rfl⟩
  obtain ⟨_, _, _, _, n, -, -, -, -, -, -, -, -, -, -, -, -, -, hset, -⟩ := provide_inv h2 hself hP.distinct
  unfold provideE at h1
  simp only [bind_ok, checkDeadline_ok, validatePos_some, requireAuth_ok, ok_inj, subI_ok, addI_ok, req_ok, whenSome_ok,
    toU128_ok, toI128_ok] at h1
  obtain ⟨_, hdl, _, ha, _, hb, _, hau, _, hsl, amp, hamp, L1, hL1, L2, hL2, _, ⟨-, rfl⟩, _, ⟨-, rfl⟩, _, ⟨-, rfl⟩,
    _, ⟨-, rfl⟩, ua, hua, ub, hub, d, hD, s, hs, _, hms, _, ⟨-, rfl⟩, ⟨p1, L3⟩, hm, hout⟩ := h1
  simp only [Prod.mk.injEq] at hout
  obtain ⟨rfl, rfl, rfl⟩ := hout
  obtain ⟨hAB, hSA, hSB⟩ := hP.distinct
  have hns := auth_ne hself hau
  have t1 := Ledger.transfer_inv hL1
  have t2 := Ledger.transfer_inv hL2
  have eA : L2.bal p.cfg.tokenA me - u.led.bal p.cfg.tokenA me = a := by
    rw [t2.2.2.2.1, t1.2.2.2.1]; simp [Flow.delta, hns, Ne.symm hAB]
  have eB : L2.bal p.cfg.tokenB me - u.led.bal p.cfg.tokenB me = b := by
    rw [t2.2.2.2.1, t1.2.2.2.1]; simp [Flow.delta, hns, hAB]
  simp only [eA, eB]
  refine ⟨rfl, rfl, rfl, rfl, rfl, fun t v htv => ?_⟩
  simp only at hset
  rw [hset t v]
  simp [Ne.symm htv]

/-- **C98** The same as `C98_withdraw_events` for the stable pool. -/
theorem C98_stable_withdraw_events {me : Addr} {s s' : Sys} (h0 : Genesis me s) {ts : List Tx} (ht : ∀ t ∈ ts, Possible me t)
    {p : State} (hp : (run me s ts).pool = some p) {c : Ctx} (hself : c.auth me = false) {sender : Addr}
    {sh mA mB : Int} {dl : Option Nat} {ev : List Event}
    (h : stepE me (run me s ts) (.pool c (.withdraw sender sh mA mB dl)) = .ok (s', ev)) :
    ∃ a b, said ev "withdraw_liquidity" "sender" = some (.addr sender) ∧ said ev "withdraw_liquidity" "shares_amount" = some (.int sh) ∧
      said ev "withdraw_liquidity" "return_amount_a" = some (.int a) ∧ said ev "withdraw_liquidity" "return_amount_b" = some (.int b) ∧
      ∀ t u, s'.led.bal t u = (run me s ts).led.bal t u +
        Flow.delta ⟨p.cfg.tokenA, me, sender, a⟩ t u + Flow.delta ⟨p.cfg.tokenB, me, sender, b⟩ t u -
        (if p.cfg.shareToken = t ∧ sender = u then sh else 0) := by
  have hI := run_keeps ts ht (genesis_inv h0)
  have hP := hI.pool p hp
  generalize run me s ts = u at *
  simp only [stepE, hp, loaded, bind_ok, ok_inj, Prod.mk.injEq, Prod.exists] at h
  obtain ⟨_, rfl, p', L', ra, rb, ev', h1, rfl, rfl⟩ := h
  have h2 := (ok_of_map (withdraw_eq me c p u.led sender sh mA mB dl)).mpr ⟨_, h1, rfl⟩
  obtain ⟨-, -, -, -, -, -, -, -, -, -, -, -, -, h14, -⟩ := withdraw_inv h2 hself hP.distinct
  unfold withdrawE at h1
  simp only [bind_ok, ok_inj, Prod.mk.injEq, Prod.exists] at h1
  obtain ⟨_, _, _, _, _, rfl, rfl, rfl, rfl, rfl⟩ := h1
  exact ⟨_, _, rfl, rfl, rfl, rfl, h14⟩

open Phoenix.Props.Stable in
example : okAnd (stepE 100 (run 100 (exStart 7 7) (exHist 100 20000000 20000000)) (Phoenix.Props.Stable.exSwap 10 50000))
    (fun q => said q.2 "swap" "return_amount" == some (.int 49850)) = true ∧
  okAnd (stepE 100 (run 100 (exStart 7 7) (exHist 100 20000000 20000000)) (.pool (by' 2) (.provide 2 500 400 none none none)))
    (fun q => said q.2 "provide_liquidity" "token_b-amount" == some (.int 400)) = true ∧
  okAnd (stepE 100 (run 100 (exStart 7 7) (exHist 100 20000000 20000000)) (.pool (by' 1) (.withdraw 1 1000 1 1 none)))
    (fun q => said q.2 "withdraw_liquidity" "return_amount_a" == some (.int 500)) = true := by decide +kernel

end Phoenix.Props.EventsStable
