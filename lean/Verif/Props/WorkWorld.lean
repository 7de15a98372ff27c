import Verif.Model.WorkWorld
import Verif.Props.Portfolio
/-! Property C161: how much work the looping calls of factory and router do.  The functions of
`WorkW` are those of the model with a counter: one unit for every call of another contract and for
every entry of a stored list that is read, written or compared. -/
namespace Phoenix.Props.WorkWorld
open Phoenix Phoenix.World Phoenix.World.Spec Phoenix.WorkW Phoenix.Props Phoenix.Props.World Phoenix.Props.Portfolio

variable {h : Host} {acct : Accounts} {w0 : World}

/-! Counting changes nothing. -/

theorem hopLoop_fst (w : World) (c : Ctx) (F r : Addr) (sp : Option Int) (dl : Option Nat) (mf : Option Int) (ops : List Multihop.Op) (x : Int) :
    (WorkW.hopLoop w c F r sp dl mf ops x).map Prod.fst = World.hopLoop w c F r sp dl mf ops x := by
  induction ops generalizing w x with
  | nil => rfl
  | cons op ops ih =>
    simp only [WorkW.hopLoop, World.hopLoop]
    cases findPool w F op.offer op.ask with
    | error _ => rfl
    | ok P =>
      simp only [bind, Except.bind]
      cases poolSwap w c P r op.offer x op.min sp dl mf with
      | error _ => rfl
      | ok q =>
        simp only
        rw [← ih]
        cases WorkW.hopLoop q.1 c F r sp dl mf ops q.2 <;> rfl

theorem simLoop_fst (w : World) (now : Nat) (F : Addr) (ops : List Multihop.Op) (x : Int) (q : Quote) :
    (WorkW.simLoop w now F ops x q).map Prod.fst = World.simLoop w now F ops x q := by
  induction ops generalizing x q with
  | nil => rfl
  | cons op ops ih =>
    simp only [WorkW.simLoop, World.simLoop]
    cases findPool w F op.offer op.ask with
    | error _ => rfl
    | ok P =>
      simp only [bind, Except.bind]
      cases poolSimulate w now P op.offer x with
      | error _ => rfl
      | ok r =>
        simp only
        rw [← ih]
        cases WorkW.simLoop w now F ops r.1 ⟨r.1, q.commissions ++ [r.2.1], q.spreads ++ [r.2.2]⟩ <;> rfl

theorem detailsLoop_fst (w : World) (l : List Addr) (acc : List PoolInfo) :
    (WorkW.detailsLoop w l acc).map Prod.fst = World.detailsLoop w l acc := by
  induction l generalizing acc with
  | nil => rfl
  | cons P l ih =>
    simp only [WorkW.detailsLoop, World.detailsLoop]
    cases poolInfo w P with
    | error _ => rfl
    | ok i =>
      simp only [bind, Except.bind]
      rw [← ih]
      cases WorkW.detailsLoop w l (acc ++ [i]) <;> rfl

theorem portfolioLoop_fst (w : World) (u : Addr) (st : Bool) (l : List Addr) (q : Portfolio) :
    (WorkW.portfolioLoop w u st l q).map Prod.fst = World.portfolioLoop w u st l q := by
  induction l generalizing q with
  | nil => rfl
  | cons P l ih =>
    simp only [WorkW.portfolioLoop, World.portfolioLoop]
    cases poolInfo w P with
    | error _ => rfl
    | ok i =>
      simp only [bind, Except.bind]
      cases expect w i.share.1 .token with
      | error _ => rfl
      | ok _ =>
        simp only
        cases expect w i.stake .stake with
        | error _ => rfl
        | ok _ =>
          simp only
          cases sumStakes (Stake.queryStaked (w.stake i.stake) u).stakes 0 with
          | error _ => rfl
          | ok s =>
            simp only
            cases addI (w.led.bal i.share.1 u) s with
            | error _ => rfl
            | ok t =>
              simp only
              cases poolShare w P t with
              | error _ => rfl
              | ok a =>
                simp only
                rw [← ih]
                cases WorkW.portfolioLoop w u st l (q.add st t a i.stake (Stake.queryStaked (w.stake i.stake) u).stakes) <;> rfl

/-- **C161** Without the counter the calls and queries do what they do in the model of the contracts. -/
theorem C161_same (w : World) :
    (∀ c H r ops sp x dl mf, (WorkW.hopSwap w c H r ops sp x dl mf).map Prod.fst = World.hopSwap w c H r ops sp x dl mf) ∧
    (∀ now H ops x, (WorkW.hopSimulate w now H ops x).map Prod.fst = World.hopSimulate w now H ops x) ∧
    (∀ F, (WorkW.allPoolsDetails w F).map Prod.fst = World.allPoolsDetails w F) ∧
    (∀ F u st, (WorkW.portfolio w F u st).map Prod.fst = World.portfolio w F u st) ∧
    (∀ h c F s i k amp sl mf f, w.fac F = some f →
      (WorkW.create h w c F s i k amp sl mf).map Prod.fst = World.create h w c F s i k amp sl mf) := by
  refine ⟨?_, ?_, ?_, ?_, ?_⟩
  · intro c H r ops sp x dl mf
    unfold WorkW.hopSwap World.hopSwap
    cases req (¬ ops = []) (.code 2) with
    | error _ => rfl
    | ok _ =>
      simp only [bind, Except.bind]
      cases Multihop.verifySwap ops with
      | error _ => rfl
      | ok _ =>
        simp only
        cases requireAuth c r with
        | error _ => rfl
        | ok _ =>
          simp only
          cases Multihop.loaded (w.hop H) with
          | error _ => rfl
          | ok m => exact hopLoop_fst w (c.as H) m.factory r sp dl mf ops x
  · intro now H ops x
    unfold WorkW.hopSimulate World.hopSimulate
    cases req (¬ ops = []) (.code 2) with
    | error _ => rfl
    | ok _ =>
      simp only [bind, Except.bind]
      cases Multihop.verifySwap ops with
      | error _ => rfl
      | ok _ =>
        simp only
        cases Multihop.loaded (w.hop H) with
        | error _ => rfl
        | ok m => exact simLoop_fst w now m.factory ops x _
  · intro F
    unfold WorkW.allPoolsDetails World.allPoolsDetails
    cases Factory.loaded (w.fac F) with
    | error _ => rfl
    | ok f => exact detailsLoop_fst w f.pools []
  · intro F u st
    unfold WorkW.portfolio World.portfolio
    cases Factory.loaded (w.fac F) with
    | error _ => rfl
    | ok f => exact portfolioLoop_fst w u st f.pools _
  · intro h c F s i k amp sl mf f hf
    unfold WorkW.create
    rw [hf]
    simp only [Factory.loaded, bind, Except.bind]
    cases World.create h w c F s i k amp sl mf <;> rfl

/-- **C161** A route makes two calls per hop, and its quote three: nothing else matters, neither the
number of pools nor what happened before. -/
theorem C161_route {w : World} {H : Addr} {ops : List Multihop.Op} {x : Int} :
    (∀ {c : Ctx} {r : Addr} {sp : Option Int} {dl : Option Nat} {mf : Option Int} {q : World × Int} {n : Nat},
      WorkW.hopSwap w c H r ops sp x dl mf = .ok (q, n) → n = 2 * ops.length) ∧
    ∀ {now : Nat} {q : Quote} {n : Nat}, WorkW.hopSimulate w now H ops x = .ok (q, n) → n = 3 * ops.length := by
  have hl : ∀ (ops : List Multihop.Op) (w : World) (c : Ctx) (F r : Addr) (sp : Option Int) (dl : Option Nat) (mf : Option Int) (x : Int)
      (q : World × Int) (n : Nat), WorkW.hopLoop w c F r sp dl mf ops x = .ok (q, n) → n = 2 * ops.length := by
    intro ops
    induction ops with
    | nil => intro w c F r sp dl mf x q n k; simp only [WorkW.hopLoop, ok_inj, Prod.mk.injEq] at k; simp [← k.2]
    | cons op ops ih =>
      intro w c F r sp dl mf x q n k
      simp only [WorkW.hopLoop, bind_ok, ok_inj, Prod.mk.injEq, Prod.exists] at k
      obtain ⟨P, -, w1, y, -, w2, z, m, k, -, rfl⟩ := k
      rw [ih _ _ _ _ _ _ _ _ _ _ k, List.length_cons]; omega
  have sl : ∀ (ops : List Multihop.Op) (now : Nat) (F : Addr) (x : Int) (p q : Quote) (n : Nat),
      WorkW.simLoop w now F ops x p = .ok (q, n) → n = 3 * ops.length := by
    intro ops
    induction ops with
    | nil => intro now F x p q n k; simp only [WorkW.simLoop, ok_inj, Prod.mk.injEq] at k; simp [← k.2]
    | cons op ops ih =>
      intro now F x p q n k
      simp only [WorkW.simLoop, bind_ok, ok_inj, Prod.mk.injEq, Prod.exists] at k
      obtain ⟨P, -, a, b, c, -, r, m, k, -, rfl⟩ := k
      rw [ih _ _ _ _ _ _ k, List.length_cons]; omega
  constructor
  · intro c r sp dl mf q n k
    unfold WorkW.hopSwap at k
    simp only [bind_ok] at k
    obtain ⟨_, -, _, -, _, -, m, -, k⟩ := k
    exact hl _ _ _ _ _ _ _ _ _ _ _ k
  · intro now q n k
    unfold WorkW.hopSimulate at k
    simp only [bind_ok] at k
    obtain ⟨_, -, _, -, m, -, k⟩ := k
    exact sl _ _ _ _ _ _ _ k

/-- **C161** The factory's reports and creations cost in proportion to the number of pools it ever
created: two units per pool for the list of details, two per existing pool (and three per account on
the whitelist) for a new pool. -/
theorem C161_factory (hh : HostOK h acct) (g : Genesis acct w0) {ts : List Tx} (hp : ∀ t ∈ ts, Possible acct t)
    {F : Addr} {l : List Addr} (hq : queryPools (run h w0 ts) F = .ok l) :
    (∀ {r n}, WorkW.allPoolsDetails (run h w0 ts) F = .ok (r, n) → n = 2 * (created h F w0 ts).length) ∧
    ∀ {c sender i k amp sl mf r n f}, (run h w0 ts).fac F = some f →
      WorkW.create h (run h w0 ts) c F sender i k amp sl mf = .ok (r, n) →
      n = 3 * f.whitelist.length + 2 * (created h F w0 ts).length + 2 := by
  have hl := (C43_pools_exact hh g hp hq).1
  have hlen : l.length = (created h F w0 ts).length := by rw [hl, List.length_map]
  rw [← hlen]
  clear hl hlen
  generalize run h w0 ts = w at *
  unfold queryPools at hq
  simp only [bind_ok, ok_inj] at hq
  obtain ⟨_, -, f0, hf0, rfl⟩ := hq
  have dl : ∀ (l : List Addr) (acc r : List PoolInfo) (n : Nat), WorkW.detailsLoop w l acc = .ok (r, n) → n = 2 * l.length := by
    intro l
    induction l with
    | nil => intro acc r n k; simp only [WorkW.detailsLoop, ok_inj, Prod.mk.injEq] at k; simp [← k.2]
    | cons P l ih =>
      intro acc r n k
      simp only [WorkW.detailsLoop, bind_ok, ok_inj, Prod.mk.injEq, Prod.exists] at k
      obtain ⟨i, -, r', m, k, -, rfl⟩ := k
      rw [ih _ _ _ k, List.length_cons]; omega
  constructor
  · intro r n k
    unfold WorkW.allPoolsDetails at k
    rw [hf0] at k
    exact dl _ _ _ _ k
  · intro c sender i k amp sl mf r n f hf e
    unfold WorkW.create at e
    simp only [bind_ok, ok_inj, Prod.mk.injEq] at e
    obtain ⟨f1, hf1, r', -, -, rfl⟩ := e
    have e1 := fac_loaded hf0
    have e2 := fac_loaded hf1
    rw [hf] at e1 e2
    cases e1
    cases e2
    omega

/-- **C161** The portfolio of an account is assembled from all pools of the factory, whether the
account has anything in them or not: every pool costs five units (six with the stakes), and every
stake of the account one more (two). -/
theorem C161_portfolio (hh : HostOK h acct) (g : Genesis acct w0) {ts : List Tx} (hp : ∀ t ∈ ts, Possible acct t)
    {F user : Addr} {l : List Addr} (hq : queryPools (run h w0 ts) F = .ok l) {q : Portfolio} {staking : Bool} {n : Nat}
    (k : WorkW.portfolio (run h w0 ts) F user staking = .ok (q, n)) :
    ∃ is : List PoolInfo, List.Forall₂ (Describes (run h w0 ts)) ((created h F w0 ts).map (·.pool)) is ∧
      n = (if staking then 6 else 5) * (created h F w0 ts).length +
        (if staking then 2 else 1) * (is.map fun i => (stakesOf (run h w0 ts) i.stake user).length).sum := by
  have hl := (C43_pools_exact hh g hp hq).1
  have hlen : l.length = (created h F w0 ts).length := by rw [hl, List.length_map]
  rw [← hlen, ← hl]
  clear hl hlen
  generalize run h w0 ts = w at *
  unfold queryPools at hq
  simp only [bind_ok, ok_inj] at hq
  obtain ⟨_, -, f0, hf0, rfl⟩ := hq
  have pl : ∀ (l : List Addr) (p q : Portfolio) (n : Nat), WorkW.portfolioLoop w user staking l p = .ok (q, n) →
      ∃ is : List PoolInfo, List.Forall₂ (Describes w) l is ∧
        n = (if staking then 6 else 5) * l.length + (if staking then 2 else 1) * (is.map fun i => (stakesOf w i.stake user).length).sum := by
    intro l
    induction l with
    | nil => intro p q n k; simp only [WorkW.portfolioLoop, ok_inj, Prod.mk.injEq] at k; exact ⟨[], .nil, by simp [← k.2]⟩
    | cons P l ih =>
      intro p q n k
      simp only [WorkW.portfolioLoop, bind_ok, ok_inj, Prod.mk.injEq, Prod.exists] at k
      obtain ⟨i, hi, _, -, _, -, s, -, t, -, a1, a2, a3, a4, -, r, m, k, -, rfl⟩ := k
      obtain ⟨is, h1, h2⟩ := ih _ _ _ k
      refine ⟨i :: is, .cons (poolInfo_ok.mp hi) h1, ?_⟩
      have e : (Stake.queryStaked (w.stake i.stake) user).stakes.length = (stakesOf w i.stake user).length := rfl
      simp only [List.length_cons, List.map_cons, List.sum_cons]
      rw [h2, e]
      cases staking <;> simp <;> omega
  unfold WorkW.portfolio at k
  rw [hf0] at k
  exact pl _ _ _ _ k

/-! the example of C90: account 1 has two stakes, account 3 has nothing; a route over both pools -/
example : (WorkW.portfolio ex_world 50 1 true).toOption.map Prod.snd = some 16 ∧
    (WorkW.portfolio ex_world 50 1 false).toOption.map Prod.snd = some 12 ∧
    (WorkW.portfolio ex_world 50 3 false).toOption.map Prod.snd = some 10 ∧
    (WorkW.allPoolsDetails ex_world 50).toOption.map Prod.snd = some 4 ∧
    (WorkW.create Example.host ex_world (Example.by' 8) 50 8 (Example.info 20 22) .xyk none 100 1000).toOption.map Prod.snd = some 9 ∧
    (created Example.host 50 Example.start (Example.setup ++ Example.liquidity ++ ex_staked)).length = 2 ∧
    (WorkW.hopSwap ex_world (Example.by' 1) Example.router 1 [⟨21, 20, none⟩, ⟨22, 21, none⟩] (some 500) 1000 none none).toOption.map Prod.snd = some 4 ∧
    (WorkW.hopSimulate ex_world 10 Example.router [⟨21, 20, none⟩, ⟨22, 21, none⟩] 1000).toOption.map Prod.snd = some 6 := by decide +kernel

end Phoenix.Props.WorkWorld
