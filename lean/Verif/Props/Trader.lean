import Verif.Props.World
/-!
Property theorems about the trader contract: C48 (only its admin moves its funds), C49 (default
trade size), C81 (`trade_token` cannot succeed).
-/
namespace Phoenix.Props.Trader
open Phoenix Phoenix.World Phoenix.World.Spec Phoenix.Spec

variable {h : Host} {acct : Accounts} {w0 : World}

/-! ### C48 -/

/-- **C48** `trade_token` and `transfer` succeed only when called by, and authorised by, the stored
admin. -/
theorem C48_only_admin {w w' : World} {c : Ctx} {T sender : Addr} {k : Call} (e : step h w c k = .ok w')
    (hk : (∃ token pool amount sp dl mi mf, k = .trade T sender token pool amount sp dl mi mf) ∨
      ∃ recipient amount token, k = .trdTransfer T sender recipient amount token) :
    ∃ t, w.trd T = some t ∧ sender = t.admin ∧ c.auth t.admin = true := by
  rcases hk with ⟨token, pool, amount, sp, dl, mi, mf, rfl⟩ | ⟨recipient, amount, token, rfl⟩
  · simp only [step, trade, bind_ok, ok_inj, expect_ok, Prod.exists, requireAuth_ok, req_ok] at e
    obtain ⟨_, h1, w1, r, ⟨_, ha, t, ht, _, hs, _⟩, -⟩ := e
    exact ⟨t, trd_loaded ht, hs, hs ▸ ha⟩
  · simp only [step, bind_ok, ok_inj, expect_ok, Trader.transfer, requireAuth_ok, req_ok] at e
    obtain ⟨_, h1, t, ht, L, ⟨_, ha, _, hs, _⟩, -⟩ := e
    exact ⟨t, trd_loaded ht, hs, hs ▸ ha⟩

/-- **C48** `trade_token` accepts only the trader's own two tokens and a spread limit between 0 and 100%. -/
theorem C48_trade_inputs {w w' : World} {c : Ctx} {T sender token pool : Addr} {amount : Option Nat} {sp mi mf : Option Int}
    {dl : Option Nat} (e : step h w c (.trade T sender token pool amount sp dl mi mf) = .ok w') :
    ∃ t, w.trd T = some t ∧ (token = t.tokenA ∨ token = t.tokenB) ∧ ∀ x, sp = some x → 0 ≤ x ∧ x ≤ 10000 := by
  simp only [step, trade, bind_ok, ok_inj, expect_ok, Prod.exists, requireAuth_ok, req_ok, Trader.checkSpread, whenSome_ok] at e
  obtain ⟨_, h1, w1, r, ⟨_, ha, t, ht, _, hs, _, hsp, _, htok, _⟩, -⟩ := e
  refine ⟨t, trd_loaded ht, ?_, fun x hx => ?_⟩
  · by_contra k; exact htok (not_or.mp k)
  · have := hsp x hx; omega

/-- **C48** A successful `transfer` moves exactly `amount` of the named token (by default the output
token) from the trader to the recipient, no more than the trader has, and changes nothing else. -/
theorem C48_transfer_exact {w w' : World} {c : Ctx} {T sender recipient : Addr} {amount : Int} {token : Option Addr}
    (e : step h w c (.trdTransfer T sender recipient amount token) = .ok w') :
    ∃ t, w.trd T = some t ∧ 0 ≤ amount ∧ amount ≤ w.led.bal (token.getD t.output) T ∧
      Settles w.led w'.led [⟨token.getD t.output, T, recipient, amount⟩] ∧ SameRights w.led w'.led ∧
      ∀ a, SameAt w w' a := by
  simp only [step, bind_ok, ok_inj, expect_ok, Trader.transfer] at e
  obtain ⟨_, h1, t, ht, L, ⟨_, _, _, _, h2⟩, rfl⟩ := e
  obtain ⟨-, k1, k2, k3, k4⟩ := Ledger.transfer_inv h2
  exact ⟨t, trd_loaded ht, k1, k2, k3, k4, fun a => ⟨rfl, rfl, rfl, rfl, rfl, rfl, rfl, rfl, rfl⟩⟩

/-- **C48** `initialize` works only while the trader is uninitialised, asks for the new admin's
authorisation, and stores exactly its arguments. -/
theorem C48_init {w w' : World} {c : Ctx} {T admin a b o : Addr} (e : step h w c (.trdInit T admin a b o) = .ok w') :
    w.trd T = none ∧ c.auth admin = true ∧ w'.trd T = some ⟨admin, a, b, o⟩ := by
  simp only [step, Trader.init, bind_ok, ok_inj, expect_ok, requireAuth_ok, req_ok, Option.isNone_iff_eq_none] at e
  obtain ⟨_, h1, t, ⟨_, ha, _, hn, rfl⟩, rfl⟩ := e
  exact ⟨hn, ha, upd_same _ _ _⟩

/-- **C48** Once set, admin, pair and output token of a trader never change. -/
theorem C48_permanent (hh : HostOK h acct) (g : Genesis acct w0) {ts us : List Tx} (hp : ∀ t ∈ ts, Possible acct t)
    (hu : ∀ t ∈ us, Possible acct t) {T : Addr} {t : Trader.State} (ht : (run h w0 ts).trd T = some t) :
    (run h (run h w0 ts) us).trd T = some t := by
  obtain ⟨I, -⟩ := run_inv hh (Phoenix.World.genesis_inv (h := h) g) hp
  obtain ⟨-, gr⟩ := run_inv hh I hu
  exact gr.trd T t ht

theorem poolSwap_kind {w w' : World} {c : Ctx} {P r offer : Addr} {x y : Int} {mi sp mf : Option Int} {dl : Option Nat}
    (e : poolSwap w c P r offer x mi sp dl mf = .ok (w', y)) : w.code P = .xyk ∨ w.code P = .stable := poolSwap_code e

/-- A trader loses tokens only by `transfer`. -/
theorem trader_step_other (hh : HostOK h acct) {w w' : World} {c : Ctx} {k : Call} (I : Inv h acct w) (hs : Signed acct c)
    (hi : c.invoker = none) {T : Addr} (hT : w.code T = .trader)
    (hk : ∀ sender recipient amount token, k ≠ .trdTransfer T sender recipient amount token)
    (e : step h w c k = .ok w') (tok : Addr) : w.led.bal tok T ≤ w'.led.bal tok T := by
  have nT := I.core.contracts T (by rw [hT]; simp)
  have hsT : c.signed T = false := by
    cases q : c.signed T with
    | false => rfl
    | true => exact absurd (hs T q) nT
  by_cases hq : ∃ T' admin a b o, k = .trdInit T' admin a b o
  · obtain ⟨T', admin, a, b, o, rfl⟩ := hq
    simp only [step, bind_ok, ok_inj, expect_ok] at e
    obtain ⟨_, h1, t, -, rfl⟩ := e
    exact le_refl _
  refine (step_untouched hh I hi e hsT ?_ (I.core.at_ T nT).led).2 tok
  intro hsp
  cases k with
  | trdTransfer T' sender recipient amount token =>
    have : T = T' := hsp
    subst this
    exact hk _ _ _ _ rfl
  | token _ _ => exact hsp
  | trade T' sender token pool amount sp dl mi mf =>
    have : T = pool := hsp
    subst this
    simp only [step, trade, bind_ok, ok_inj, expect_ok, Prod.exists] at e
    obtain ⟨_, h1, w1, r, ⟨_, _, _, _, _, _, _, _, _, _, h2⟩, rfl⟩ := e
    rcases poolSwap_kind h2 with q | q <;> rw [hT] at q <;> simp at q
  | hopSwap H r ops sp amount dl mf =>
    obtain ⟨m, hm, op, -, hf⟩ := hsp
    rcases (findPool_kind I hf) with q | q <;> rw [hT] at q <;> simp at q
  | xykInit P _ _ _ _ _ =>
    rcases hsp with rfl | q
    · simp only [step, bind_ok, expect_ok] at e
      obtain ⟨_, h1, -⟩ := e; rw [hT] at h1; simp at h1
    · rw [hT] at q; simp at q
  | stableInit P _ _ _ _ =>
    rcases hsp with rfl | q
    · simp only [step, bind_ok, expect_ok] at e
      obtain ⟨_, h1, -⟩ := e; rw [hT] at h1; simp at h1
    · rw [hT] at q; simp at q
  | facInit F _ _ _ _ _ _ _ =>
    rcases hsp with rfl | q
    · simp only [step, facInit, bind_ok, expect_ok] at e
      obtain ⟨_, h1, -⟩ := e; rw [hT] at h1; simp at h1
    · rw [hT] at q; simp at q
  | create F _ _ _ _ _ _ =>
    rcases hsp with rfl | q
    · simp only [step, bind_ok, expect_ok] at e
      obtain ⟨_, h1, -⟩ := e; rw [hT] at h1; simp at h1
    · rw [hT] at q; simp at q
  | trdInit T' admin a b o =>
    have : T = T' := hsp
    subst this
    exact hq ⟨_, _, _, _, _, rfl⟩
  | xyk P k =>
    have : T = P := hsp
    subst this
    cases k <;> simp only [step, bind_ok, expect_ok, reduceCtorEq] at e
    all_goals
      obtain ⟨_, h1, -⟩ := e; rw [hT] at h1; simp at h1
  | stable P k =>
    have : T = P := hsp
    subst this
    cases k <;> simp only [step, bind_ok, expect_ok, reduceCtorEq] at e
    all_goals
      obtain ⟨_, h1, -⟩ := e; rw [hT] at h1; simp at h1
  | vest P k =>
    have : T = P := hsp
    subst this
    cases k <;> simp only [step, bind_ok, expect_ok] at e
    all_goals
      obtain ⟨_, h1, -⟩ := e; rw [hT] at h1; simp at h1
  | stake P _ =>
    have : T = P := hsp
    subst this
    simp only [step, bind_ok, expect_ok] at e
    obtain ⟨_, h1, -⟩ := e; rw [hT] at h1; simp at h1
  | rewards P _ =>
    have : T = P := hsp
    subst this
    simp only [step, bind_ok, expect_ok] at e
    obtain ⟨_, h1, -⟩ := e; rw [hT] at h1; simp at h1
  | whitelist P _ _ _ =>
    have : T = P := hsp
    subst this
    simp only [step, bind_ok, expect_ok] at e
    obtain ⟨_, h1, -⟩ := e; rw [hT] at h1; simp at h1
  | hashes P _ _ _ =>
    have : T = P := hsp
    subst this
    simp only [step, bind_ok, expect_ok] at e
    obtain ⟨_, h1, -⟩ := e; rw [hT] at h1; simp at h1
  | facUpdate P _ =>
    have : T = P := hsp
    subst this
    simp only [step, bind_ok, expect_ok] at e
    obtain ⟨_, h1, -⟩ := e; rw [hT] at h1; simp at h1
  | hopInit P _ _ =>
    have : T = P := hsp
    subst this
    simp only [step, bind_ok, expect_ok] at e
    obtain ⟨_, h1, -⟩ := e; rw [hT] at h1; simp at h1
where
  findPool_kind {w : World} (I : Inv h acct w) {F a b P : Addr} (e : findPool w F a b = .ok P) :
      w.code P = .xyk ∨ w.code P = .stable := by
    unfold findPool at e
    simp only [bind_ok, expect_ok] at e
    obtain ⟨_, -, f, hf, hl⟩ := e
    have ho := I.refs.fac F f (fac_loaded hf)
    have key : ∀ x y, f.pair x y = some P → w.code P = .xyk ∨ w.code P = .stable := by
      intro x y q
      obtain ⟨-, -, q, -⟩ := ho.pair _ _ _ q
      exact q.imp And.left And.left
    unfold Factory.lookup Factory.lookupReverted at hl
    split at hl
    · rename_i hq; rw [ok_inj] at hl; subst hl; exact key _ _ hq
    · split at hl
      · rename_i hq; rw [ok_inj] at hl; subst hl; exact key _ _ hq
      · simp at hl

/-- A trader loses tokens in a transaction only if its admin signs. -/
theorem trader_step (hh : HostOK h acct) {w w' : World} {c : Ctx} {k : Call} (I : Inv h acct w) (hs : Signed acct c)
    (hi : c.invoker = none) {T : Addr} {t : Trader.State} (hT : w.code T = .trader) (ht : w.trd T = some t)
    (hno : c.signed t.admin = false) (e : step h w c k = .ok w') (tok : Addr) : w.led.bal tok T ≤ w'.led.bal tok T := by
  refine trader_step_other hh I hs hi hT ?_ e tok
  rintro sender recipient amount token rfl
  obtain ⟨t', ht', -, ha⟩ := C48_only_admin e (.inr ⟨_, _, _, rfl⟩)
  rw [ht] at ht'; cases ht'
  simp [Ctx.auth, hi, hno] at ha

/-- **C48** Through any history in which its admin signs nothing, an initialised trader loses no
tokens, whatever everybody else does with any of the contracts. -/
theorem C48_funds_safe (hh : HostOK h acct) (g : Genesis acct w0) {ts us : List Tx} (hp : ∀ t ∈ ts, Possible acct t)
    (hu : ∀ t ∈ us, Possible acct t) {T : Addr} {t : Trader.State} (hT : (run h w0 ts).code T = .trader)
    (ht : (run h w0 ts).trd T = some t) (hno : ∀ u ∈ us, u.ctx.signed t.admin = false) (tok : Addr) :
    (run h w0 ts).led.bal tok T ≤ (run h (run h w0 ts) us).led.bal tok T := by
  obtain ⟨I, -⟩ := run_inv hh (Phoenix.World.genesis_inv (h := h) g) hp
  exact go us _ I hT ht hu hno
where
  go {T : Addr} {t : Trader.State} {tok : Addr} : ∀ (us : List Tx) (w : World), Inv h acct w → w.code T = .trader → w.trd T = some t →
      (∀ u ∈ us, Possible acct u) → (∀ u ∈ us, u.ctx.signed t.admin = false) → w.led.bal tok T ≤ (run h w us).led.bal tok T
    | [], w, _, _, _, _, _ => le_refl _
    | u :: us, w, I, hT, ht, hu, hno => by
      have hu1 := hu u (by simp)
      obtain ⟨I1, gr⟩ := exec_inv hh I hu1
      have h1 : w.led.bal tok T ≤ (exec h w u).led.bal tok T := by
        unfold exec
        split
        · rename_i w1 e; exact trader_step hh I hu1.2 hu1.1 hT ht (hno u (by simp)) e tok
        · exact le_refl _
      exact h1.trans (go us (exec h w u) I1 ((gr.code T (by rw [hT]; simp)).trans hT) (gr.trd T t ht)
        (fun v hv => hu v (by simp [hv])) (fun v hv => hno v (by simp [hv])))

/-! ### C49 and C81 -/

theorem poolSwap_pays {w w' : World} {c : Ctx} {P r offer : Addr} {x y : Int} {mi sp mf : Option Int} {dl : Option Nat}
    (e : poolSwap w c P r offer x mi sp dl mf = .ok (w', y)) :
    0 < x ∧ (c.as P).auth r = true := by
  unfold poolSwap at e
  split at e
  · simp only [bind_ok, ok_inj, Prod.exists, Prod.mk.injEq] at e
    obtain ⟨p, hp, p', L, r', hk, rfl, rfl⟩ := e
    unfold Pool.swap Pool.doSwap at hk
    simp only [bind_ok, ok_inj, Prod.exists, validatePos_some, requireAuth_ok] at hk
    obtain ⟨_, -, _, h1, _, -, _, -, _, _, -, _, -, _, -, _, -, _, -, _, -, _, -, L1, h2, -⟩ := hk
    exact ⟨h1, (Ledger.transfer_inv h2).1⟩
  · simp only [bind_ok, ok_inj, Prod.exists, Prod.mk.injEq] at e
    obtain ⟨p, hp, p', L, r', hk, rfl, rfl⟩ := e
    unfold Stable.swap Stable.doSwap at hk
    simp only [bind_ok, ok_inj, Prod.exists, validatePos_some, requireAuth_ok] at hk
    obtain ⟨_, -, _, h1, _, -, _, -, _, _, -, _, -, _, -, _, -, _, -, L1, h2, -⟩ := hk
    exact ⟨h1, (Ledger.transfer_inv h2).1⟩
  · simp at e

theorem trade_inv {w w' : World} {c : Ctx} {T sender token pool : Addr} {amount : Option Nat} {sp mi mf : Option Int}
    {dl : Option Nat} {y : Int} (e : trade w c T sender token pool amount sp dl mi mf = .ok (w', y)) :
    ∃ t, w.trd T = some t ∧ sender = t.admin ∧
      poolSwap w (c.as T) pool T token (Phoenix.Trader.amountOf w.led sender token amount) mi sp dl mf = .ok (w', y) := by
  unfold trade at e
  simp only [bind_ok, requireAuth_ok, req_ok] at e
  obtain ⟨_, -, t, ht, _, hs, _, -, _, -, h2⟩ := e
  exact ⟨t, trd_loaded ht, hs, h2⟩

/-- **C49** Leaving out the amount of `trade_token` means the *caller's* balance of the token: the
call behaves exactly as if that number had been given.  The trader's own holdings play no part. -/
theorem C49_default_is_callers_balance {w : World} {c : Ctx} {T sender token pool : Addr} {sp mi mf : Option Int}
    {dl : Option Nat} (hpos : 0 ≤ w.led.bal token sender) :
    trade w c T sender token pool none sp dl mi mf =
      trade w c T sender token pool (some (w.led.bal token sender).toNat) sp dl mi mf := by
  have : Phoenix.Trader.amountOf w.led sender token none =
      Phoenix.Trader.amountOf w.led sender token (some (w.led.bal token sender).toNat) := by
    simp only [Phoenix.Trader.amountOf]; omega
  unfold trade
  rw [this]

/-- **C49** So if the admin personally holds none of the token, `trade_token` without an amount fails
whatever the trader holds, in every state and whoever authorises. -/
theorem C49_fails_if_admin_has_none {w : World} {c : Ctx} {T sender token pool : Addr} {sp mi mf : Option Int}
    {dl : Option Nat} (hz : w.led.bal token sender = 0) : ∃ er, trade w c T sender token pool none sp dl mi mf = .error er := by
  cases e : trade w c T sender token pool none sp dl mi mf with
  | error er => exact ⟨er, rfl⟩
  | ok q =>
    obtain ⟨t, -, rfl, h2⟩ := trade_inv (w' := q.1) (y := q.2) e
    have := (poolSwap_pays h2).1
    simp only [Phoenix.Trader.amountOf, hz] at this
    exact absurd this (lt_irrefl _)

/-- **C81** `trade_token` never succeeds in a real transaction: the pool pulls the tokens from the
trader with `transfer`, for which the token contract needs the trader's authorisation, but the
trader is a contract, does not sign, and is not the direct caller of the token. -/
theorem C81_trade_never_succeeds (hh : HostOK h acct) (g : Genesis acct w0) {ts : List Tx} (hp : ∀ t ∈ ts, Possible acct t)
    {c : Ctx} {T sender token pool : Addr} {amount : Option Nat} {sp mi mf : Option Int} {dl : Option Nat}
    (hc : Possible acct ⟨c, .trade T sender token pool amount sp dl mi mf⟩) :
    ∃ er, step h (run h w0 ts) c (.trade T sender token pool amount sp dl mi mf) = .error er := by
  obtain ⟨I, -⟩ := run_inv hh (Phoenix.World.genesis_inv (h := h) g) hp
  cases e : step h (run h w0 ts) c (.trade T sender token pool amount sp dl mi mf) with
  | error er => exact ⟨er, rfl⟩
  | ok w' =>
    exfalso
    simp only [step, bind_ok, ok_inj, expect_ok, Prod.exists] at e
    obtain ⟨_, hT, w1, r, h1, -⟩ := e
    obtain ⟨t, -, -, h2⟩ := trade_inv h1
    have ha := (poolSwap_pays h2).2
    have nT := I.core.contracts T (by rw [hT]; simp)
    have hsT : c.signed T = false := by
      cases q : c.signed T with
      | false => rfl
      | true => exact absurd (hc.2 T q) nT
    have hne : T ≠ pool := by
      rintro rfl
      rcases poolSwap_kind h2 with q | q <;> rw [hT] at q <;> simp at q
    simp only [Ctx.as, Ctx.auth, hsT, Bool.false_or, beq_iff_eq, Option.some.injEq] at ha
    exact hne ha.symm

/-- **C81** Hence tokens sent to a trader can only ever be moved out by the admin's `transfer`: every
call that is not that leaves the trader's balances at least as they were, even if the admin signs. -/
theorem C81_only_transfer_spends (hh : HostOK h acct) (g : Genesis acct w0) {ts : List Tx} (hp : ∀ t ∈ ts, Possible acct t)
    {T : Addr} (hT : (run h w0 ts).code T = .trader) {c : Ctx} {k : Call} (hc : Possible acct ⟨c, k⟩)
    (hk : ∀ sender recipient amount token, k ≠ .trdTransfer T sender recipient amount token) (tok : Addr) :
    (run h w0 ts).led.bal tok T ≤ (exec h (run h w0 ts) ⟨c, k⟩).led.bal tok T := by
  obtain ⟨I, -⟩ := run_inv hh (Phoenix.World.genesis_inv (h := h) g) hp
  unfold exec
  split
  · rename_i w1 e; exact trader_step_other hh I hc.2 hc.1 hT hk e tok
  · exact le_refl _

/-- account 2 is the admin of the trader at 60 and sends it 1000 of token 20 -/
def exTs : List Tx :=
  Example.setup ++ Example.liquidity ++
    [⟨Example.by' 2, .trdInit 60 2 20 21 21⟩, ⟨Example.by' 2, .token 20 (.transfer 2 60 1000)⟩]

theorem ex_possible : ∀ t ∈ exTs, Possible Example.acct t := by
  intro t ht
  rcases List.mem_append.mp ht with k | k
  · exact World.ex_setup t k
  · simp only [List.mem_cons, List.not_mem_nil, or_false] at k
    rcases k with rfl | rfl <;> exact World.possible_by (by decide)

/-- The trader holds 1000; the admin can transfer it out, others cannot; `trade_token` fails for the
admin but succeeds, with the caller's balance as the amount, if the trader's own signature is
simulated as the project's tests do (here with the caller holding 400). -/
example : (run Example.host Example.start exTs).led.bal 20 60 = 1000 ∧
    (run Example.host Example.start exTs).trd 60 = some ⟨2, 20, 21, 21⟩ ∧
    ((run Example.host Example.start (exTs ++ [⟨Example.by' 2, .trdTransfer 60 2 5 300 (some 20)⟩])).led.bal 20 60 = 700) ∧
    ((run Example.host Example.start (exTs ++ [⟨Example.by' 3, .trdTransfer 60 3 5 300 (some 20)⟩])).led.bal 20 60 = 1000) ∧
    ((run Example.host Example.start (exTs ++ [⟨Example.by' 2, .trade 60 2 20 Example.pool1 (some 100) none none none none⟩])).led.bal 20 60
      = 1000) ∧
    ((run Example.host Example.start (exTs ++ [⟨Example.by' 2, .token 20 (.transfer 2 3 4998600)⟩,
      ⟨{ now := 10, seq := 20, signed := fun x => x == 2 || x == 60 }, .trade 60 2 20 Example.pool1 none none none none none⟩])).led.bal 20 60
      = 600) := by
  decide +kernel

end Phoenix.Props.Trader
