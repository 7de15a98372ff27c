import Verif.Lemmas.Stray
import Verif.Props.World
import Verif.Spec.WorldExample
/-!
Property theorems about tokens that were sent to a contract by mistake: C146.
-/
namespace Phoenix.Props.Stray
open Phoenix Phoenix.World Phoenix.World.Spec Phoenix.Spec

variable {h : Host} {acct : Accounts} {w0 : World}

/-- **C146** What a contract has no business with never leaves it again: whatever anyone does afterwards, the contract's balance of
such a token never gets smaller.  It is enough that the contract has no business with the token in the end, since business with a
token is never given up. -/
theorem C146_kept_for_ever (hh : HostOK h acct) (g : Genesis acct w0) {ts us : List Tx} (hp : ∀ t ∈ ts ++ us, Possible acct t)
    {X tok : Addr} (hX : (run h w0 ts).code X ≠ .none) (hn : ¬ Handles (run h w0 (ts ++ us)) X tok) :
    (run h w0 ts).led.bal tok X ≤ (run h w0 (ts ++ us)).led.bal tok X := by
  rw [World.run_append] at hn ⊢
  exact run_keep hh us (run_inv hh (Phoenix.World.genesis_inv (h := h) g) (fun t ht => hp t (by simp [ht]))).1
    (fun t ht => hp t (by simp [ht])) hX hn

/-- **C146** No token of any kind ever leaves the factory, the router or the contract of a token. -/
theorem C146_bystanders (hh : HostOK h acct) (g : Genesis acct w0) {ts us : List Tx} (hp : ∀ t ∈ ts ++ us, Possible acct t)
    {X : Addr} (hX : (run h w0 ts).code X = .factory ∨ (run h w0 ts).code X = .multihop ∨ (run h w0 ts).code X = .token) (tok : Addr) :
    (run h w0 ts).led.bal tok X ≤ (run h w0 (ts ++ us)).led.bal tok X := by
  have hne : (run h w0 ts).code X ≠ .none := by rcases hX with k | k | k <;> rw [k] <;> simp
  obtain ⟨I, -⟩ := run_inv hh (Phoenix.World.genesis_inv (h := h) g) (ts := ts) (fun t ht => hp t (by simp [ht]))
  obtain ⟨J, gr⟩ := run_inv hh I (ts := us) (fun t ht => hp t (by simp [ht]))
  refine C146_kept_for_ever hh g hp hne ?_
  rw [World.run_append]
  have hc := gr.code X hne
  rw [← hc] at hX
  generalize run h (run h w0 ts) us = w at *
  rintro (⟨p, k, -⟩ | ⟨p, k, -⟩ | ⟨p, k, -⟩ | k | ⟨p, k, -⟩ | ⟨p, k, -⟩ | k)
  · have := (J.refs.xyk X p k).1; rcases hX with q | q | q <;> rw [this] at q <;> cases q
  · have := (J.refs.stable X p k).1; rcases hX with q | q | q <;> rw [this] at q <;> cases q
  · rw [J.refs.stake X (by rcases hX with q | q | q <;> rw [q] <;> simp)] at k; simp [Stake.fresh] at k
  · rw [J.refs.stake X (by rcases hX with q | q | q <;> rw [q] <;> simp)] at k; simp [Stake.fresh] at k
  · have := J.refs.vest X p k; rcases hX with q | q | q <;> rw [this] at q <;> cases q
  · rw [J.refs.rew X (by rcases hX with q | q | q <;> rw [q] <;> simp)] at k; simp [Rewards.fresh] at k
  · rcases hX with q | q | q <;> rw [k] at q <;> cases q

theorem stake_surplus {me : Addr} {s s' : Stake.Sys} {c : Ctx} {k : Stake.Call} (e : Stake.step me s (.stake c k) = .ok s')
    (hme : c.auth me = false) {cfg : Stake.Config} (hcfg : s.st.cfg = some cfg) (hd : cfg.lpToken ∉ s.st.dists) :
    s.led.bal cfg.lpToken me - s.st.total ≤ s'.led.bal cfg.lpToken me - s'.st.total := by
  cases k with
  | init a lp mb mr m o mc =>
    simp only [Stake.step, Stake.init, bind_ok, ok_inj, req_ok] at e
    obtain ⟨v, ⟨_, h1, -⟩, rfl⟩ := e
    rw [hcfg] at h1; cases h1
  | bond a x =>
    simp only [Stake.step, bind_ok, ok_inj, Prod.exists] at e
    obtain ⟨v, L, h1, rfl⟩ := e
    obtain ⟨ha, cfg', hc, -, -, -, -, -, rfl, hs, -⟩ := Stake.bond_inv h1
    rw [hcfg] at hc; cases hc
    have hne := ne_of_auth ha hme
    have := hs cfg.lpToken me
    simp [Flow.delta, hne] at this
    simp only; omega
  | unbond a x ts =>
    simp only [Stake.step, bind_ok, ok_inj, Prod.exists] at e
    obtain ⟨v, L, h1, rfl⟩ := e
    obtain ⟨ha, cfg', p, q, hc, -, -, -, -, rfl, hs, -⟩ := Stake.unbond_inv h1
    rw [hcfg] at hc; cases hc
    have hne := ne_of_auth ha hme
    have := hs cfg.lpToken me
    simp [Flow.delta, hne] at this
    simp only; omega
  | createFlow a t =>
    simp only [Stake.step, Stake.createFlow, bind_ok, ok_inj] at e
    obtain ⟨v, ⟨_, _, _, _, _, _, _, _, rfl⟩, rfl⟩ := e
    exact le_refl _
  | distribute a x t =>
    simp only [Stake.step, bind_ok, ok_inj, Prod.exists] at e
    obtain ⟨v, L, h1, rfl⟩ := e
    obtain ⟨ha, cfg', m, -, -, ht, -, -, -, hL, rfl, -⟩ := Stake.distribute_inv h1
    have := keep_transfer (t := cfg.lpToken) (me := me) hL (.inr rfl)
    simp only; omega
  | withdraw a =>
    simp only [Stake.step, bind_ok, ok_inj, Prod.exists] at e
    obtain ⟨v, L, h1, rfl⟩ := e
    obtain ⟨rfl, hL⟩ := Stake.withdraw_inv h1
    have := Stake.payLoop_keep hd hL
    simp only; omega

theorem stake_surplus_run (hh : HostOK h acct) {K : Addr} {cfg : Stake.Config} : ∀ (ts : List Tx) {w : World}, Inv h acct w →
    (∀ t ∈ ts, Possible acct t) → (w.stake K).cfg = some cfg → cfg.lpToken ∉ ((run h w ts).stake K).dists →
    w.led.bal cfg.lpToken K - (w.stake K).total ≤
      (run h w ts).led.bal cfg.lpToken K - ((run h w ts).stake K).total
  | [], w, _, _, _, _ => le_refl _
  | u :: ts, w, I, hp, hc, hn => by
    have hu := hp u (by simp)
    obtain ⟨I1, g1⟩ := exec_inv hh I hu
    have hp' : ∀ v ∈ ts, Possible acct v := fun v hv => hp v (by simp [hv])
    refine le_trans ?_ (stake_surplus_run hh ts I1 hp' (g1.stake K cfg hc) hn)
    have hK : w.code K = .stake := by
      by_contra hne
      rw [I.refs.stake K hne] at hc; simp [Stake.fresh] at hc
    have hna := I.core.contracts K (by rw [hK]; simp)
    have hs : u.ctx.signed K = false := by
      cases e : u.ctx.signed K with
      | false => rfl
      | true => exact absurd (hu.2 K e) hna
    -- announced tokens stay announced
    have hd : cfg.lpToken ∉ (w.stake K).dists := by
      intro hd
      apply hn
      clear hn
      revert hd
      have key : ∀ (ts : List Tx) {w : World}, Inv h acct w → (∀ t ∈ ts, Possible acct t) → w.code K = .stake →
          cfg.lpToken ∈ (w.stake K).dists → cfg.lpToken ∈ ((run h w ts).stake K).dists := by
        intro ts
        induction ts with
        | nil => exact fun _ _ _ hd => hd
        | cons v ts ih =>
          intro w I hp hK hd
          obtain ⟨I1, g1⟩ := exec_inv hh I (hp v (by simp))
          refine ih I1 (fun v hv => hp v (by simp [hv])) (by rw [g1.code K (by rw [hK]; simp)]; exact hK) ?_
          unfold exec
          split
          · rename_i w1 e
            by_cases hT : Touches w v.call K
            · obtain ⟨k, hk⟩ := touch_stake I e hK hT
              rw [hk] at e
              simp only [step, bind_ok, ok_inj, expect_ok] at e
              obtain ⟨_, h1, s, h2, rfl⟩ := e
              simp only [upd_same]
              exact Stake.step_dists h2 hd
            · rw [(step_same e hT).stake]; exact hd
          · exact hd
      exact key (u :: ts) I hp hK
    unfold exec
    split
    · rename_i w1 e
      by_cases hT : Touches w u.call K
      · obtain ⟨k, hk⟩ := touch_stake I e hK hT
        rw [hk] at e
        simp only [step, bind_ok, ok_inj, expect_ok] at e
        obtain ⟨_, h1, s, h2, rfl⟩ := e
        simp only [upd_same]
        exact stake_surplus h2 (I.core.auth_false hu.2 (by rw [hK]; simp) (by rw [hu.1]; simp)) hc hd
      · rw [(step_same e hT).stake]
        have hS : ¬ Spends w u.call K := by
          cases hk : u.call with
          | trdTransfer T a b x tk =>
            rw [hk] at e
            simp only [step, bind_ok, expect_ok] at e
            obtain ⟨_, h1, -⟩ := e
            intro q
            have : K = T := q
            rw [← this, hK] at h1; cases h1
          | _ => rw [hk] at hT; exact hT
        have := (step_untouched hh I hu.1 e hs hS (I.core.at_ K hna).led).2 cfg.lpToken
        omega
    · exact le_refl _

/-- **C146** LP tokens that are sent to a stake contract instead of being staked stay there for ever too: what it holds beyond the
total staked never gets smaller, unless the LP token itself is announced as a reward. -/
theorem C146_sent_not_staked (hh : HostOK h acct) (g : Genesis acct w0) {ts us : List Tx} (hp : ∀ t ∈ ts ++ us, Possible acct t)
    {K : Addr} {cfg : Stake.Config} (hc : ((run h w0 ts).stake K).cfg = some cfg)
    (hn : cfg.lpToken ∉ ((run h w0 (ts ++ us)).stake K).dists) :
    (run h w0 ts).led.bal cfg.lpToken K - ((run h w0 ts).stake K).total ≤
      (run h w0 (ts ++ us)).led.bal cfg.lpToken K - ((run h w0 (ts ++ us)).stake K).total := by
  rw [World.run_append] at hn ⊢
  exact stake_surplus_run hh us (run_inv hh (Phoenix.World.genesis_inv (h := h) g) (fun t ht => hp t (by simp [ht]))).1
    (fun t ht => hp t (by simp [ht])) hc hn

/-- **C146** From a trader everything can be taken back: its admin can have any token and any amount up to the trader's balance
paid to anyone with room for it. -/
theorem C146_trader_pays_back {w : World} {T : Addr} {tr : Trader.State} (hT : w.code T = .trader) (ht : w.trd T = some tr)
    {c : Ctx} (hc : c.auth tr.admin = true) {tok r : Addr} {x : Int} (h0 : 0 ≤ x) (hx : x ≤ w.led.bal tok T) (hr : r ≠ T)
    (hb : w.led.bal tok T ≤ I128_MAX) (hm : 0 ≤ w.led.bal tok r) (hM : w.led.bal tok r + x ≤ I128_MAX) :
    ∃ w', step h w c (.trdTransfer T tr.admin r x (some tok)) = .ok w' ∧ w'.led.bal tok r = w.led.bal tok r + x := by
  have hl : Trader.loaded (w.trd T) = .ok tr := by rw [ht]; rfl
  have hL : ∃ L, w.led.transfer (c.as T) tok T r x = .ok L := by
    have e1 : InI128 ((w.led tok).bal T - x) := by
      unfold Ledger.bal at hx hb; unfold InI128 I128_MIN; constructor <;> omega
    have e2 : InI128 (upd (w.led tok).bal T ((w.led tok).bal T - x) r + x) := by
      rw [upd_ne _ _ hr]; unfold Ledger.bal at hm hM; unfold InI128 I128_MIN; constructor <;> omega
    have e3 := (Token.transfer_ok (c := c.as T)).mpr ⟨by simp [Ctx.auth, Ctx.as], h0, hx, e1, e2, rfl⟩
    exact ⟨_, Ledger.call_ok.mpr ⟨_, e3, rfl⟩⟩
  obtain ⟨L, hL⟩ := hL
  refine ⟨{ w with led := L }, ?_, ?_⟩
  · simp only [step, bind_ok, ok_inj, expect_ok, Trader.transfer, requireAuth_ok, req_ok]
    exact ⟨(), hT, tr, hl, L, ⟨(), hc, (), rfl, hL⟩, rfl⟩
  · obtain ⟨-, -, -, hs, -⟩ := Ledger.transfer_inv hL
    rw [hs tok r]
    simp [Flow.delta, Ne.symm hr]

open Phoenix.World.Example in
/-- pools with liquidity, then account 2 sends 7 of token 22 to the pool of 20 and 21 and 5 of token 20 to the router, and account 1
5 LP tokens to the stake contract of the pool -/
def exSent : List Tx := setup ++ liquidity ++
  [ ⟨by' 2, .token 22 (.transfer 2 pool1 7)⟩,
    ⟨by' 2, .token 20 (.transfer 2 router 5)⟩,
    ⟨by' 1, .token (host.shareAddr pool1 20 21) (.transfer 1 (host.stakeAddr pool1) 5)⟩ ]

open Phoenix.World.Example in
/-- afterwards account 1 stakes and account 2 trades -/
def exAfter : List Tx :=
  [ ⟨by' 1, .stake (host.stakeAddr pool1) (.bond 1 100)⟩,
    ⟨by' 2, .xyk pool1 (.swap 2 20 1000 none none none none)⟩ ]

open Phoenix.World.Example in
theorem ex_possible : ∀ t ∈ exSent ++ exAfter, Possible Example.acct t := by
  intro t ht
  simp only [exSent, exAfter, List.append_assoc, List.mem_append] at ht
  rcases ht with k | k | k | k
  · exact World.ex_setup t (List.mem_append_left _ k)
  · exact World.ex_setup t (List.mem_append_right _ k)
  · simp only [List.mem_cons, List.not_mem_nil, or_false] at k
    rcases k with rfl | rfl | rfl <;> exact World.possible_by (by decide)
  · simp only [List.mem_cons, List.not_mem_nil, or_false] at k
    rcases k with rfl | rfl <;> exact World.possible_by (by decide)

open Phoenix.World.Example in
example : (run host start exSent).code pool1 = .xyk ∧ (run host start exSent).led.bal 22 pool1 = 7 ∧
    (run host start exSent).code router = .multihop ∧ (run host start exSent).led.bal 20 router = 5 ∧
    (run host start exSent).led.bal (host.shareAddr pool1 20 21) (host.stakeAddr pool1) = 5 ∧
    ((run host start exSent).stake (host.stakeAddr pool1)).cfg.map (·.lpToken) = some (host.shareAddr pool1 20 21) := by
  decide +kernel

open Phoenix.World.Example in
theorem ex_facts : (run host start (exSent ++ exAfter)).led.bal 22 pool1 = 7 ∧
    ((run host start (exSent ++ exAfter)).xyk pool1).map (fun p => (p.cfg.tokenA, p.cfg.tokenB)) = some (20, 21) ∧
    ((run host start (exSent ++ exAfter)).stable pool1).isNone ∧ ((run host start (exSent ++ exAfter)).vest pool1).isNone ∧
    (run host start (exSent ++ exAfter)).code pool1 = .xyk ∧
    ((run host start (exSent ++ exAfter)).stake (host.stakeAddr pool1)).dists = [] ∧
    ((run host start (exSent ++ exAfter)).stake (host.stakeAddr pool1)).total = 100 := by
  decide +kernel

open Phoenix.World.Example in
example : ¬ Handles (run host start (exSent ++ exAfter)) pool1 22 := by
  obtain ⟨-, h1, h2, h3, h4, -, -⟩ := ex_facts
  obtain ⟨I, -⟩ := run_inv World.ex_host (Phoenix.World.genesis_inv World.ex_genesis) ex_possible
  generalize run host start (exSent ++ exAfter) = w at *
  rintro (⟨p, k, q⟩ | ⟨p, k, -⟩ | ⟨p, k, -⟩ | k | ⟨p, k, -⟩ | ⟨p, k, -⟩ | k)
  · rw [k] at h1
    simp only [Option.map_some, Option.some.injEq, Prod.mk.injEq] at h1
    rw [h1.1, h1.2] at q; revert q; decide
  · rw [k] at h2; cases h2
  · rw [I.refs.stake pool1 (by rw [h4]; simp)] at k; simp [Stake.fresh] at k
  · rw [I.refs.stake pool1 (by rw [h4]; simp)] at k; simp [Stake.fresh] at k
  · rw [k] at h3; cases h3
  · rw [I.refs.rew pool1 (by rw [h4]; simp)] at k; simp [Rewards.fresh] at k
  · rw [h4] at k; cases k

open Phoenix.World.Example in
/-- a trader for 20 and 21 was sent 500 of token 22, and its admin takes 300 of them out -/
example : (let w := run host start [⟨by' 4, .trdInit 60 4 20 21 21⟩, ⟨by' 2, .token 22 (.transfer 2 60 500)⟩]
    w.code 60 = .trader ∧ (w.trd 60).map (·.admin) = some 4 ∧ w.led.bal 22 60 = 500 ∧ w.led.bal 22 3 = 0 ∧
    (exec host w ⟨by' 4, .trdTransfer 60 4 3 300 (some 22)⟩).led.bal 22 3 = 300) := by
  decide +kernel

end Phoenix.Props.Stray
