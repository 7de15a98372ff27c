import Verif.Lemmas.Admin
import Verif.Props.World
/-!
Property C93: who can replace the code of a contract and who is its administrator; what
`initialize` of the factory and of the router need.
-/
namespace Phoenix.Props.Admin
open Phoenix Phoenix.World Phoenix.World.Spec

variable {h : Host} {acct : Accounts} {w0 : World}

/-- **C93** Code is replaced exactly if the administrator that the contract has stored authorises; a
contract that is not initialised, a token or a trader can never be replaced. -/
theorem C93_replace_iff {w : World} {c : Ctx} {a : Addr} :
    (replace w c a = .ok () ↔ ∃ admin, adminOf w a = some admin ∧ c.auth admin = true) ∧
    ((w.code a = .token ∨ w.code a = .trader ∨ w.code a = .none) → replace w c a ≠ .ok ()) := by
  constructor
  · unfold replace
    cases e : adminOf w a with
    | none => simp
    | some admin => simp [requireAuth_ok]
  · intro k
    have : adminOf w a = none := by unfold adminOf; rcases k with k | k | k <;> rw [k]
    unfold replace
    rw [this]; simp

/-- One step keeps the administrator of every contract that is not a pool, and that of an XYK pool
unless that administrator signs. -/
theorem step_admin (hh : HostOK h acct) {w w' : World} {c : Ctx} {k : Call} (I : Inv h acct w) (hc : Signed acct c)
    (hi : c.invoker = none) (e : step h w c k = .ok w') {a admin : Addr} (ha : adminOf w a = some admin)
    (hs : w.code a ≠ .stable) (hx : w.code a = .xyk → c.signed admin = false) : adminOf w' a = some admin ∧ w'.code a = w.code a := by
  obtain ⟨-, g⟩ := step_inv hh I hc hi e
  have hcode : w.code a ≠ .none := by intro k; unfold adminOf at ha; rw [k] at ha; simp at ha
  have ec := g.code a hcode
  refine ⟨?_, ec⟩
  unfold adminOf at ha ⊢
  rw [ec]
  cases q : w.code a <;> rw [q] at ha <;> simp only [reduceCtorEq, Option.map_eq_some_iff] at ha ⊢
  · obtain ⟨p, hp, rfl⟩ := ha
    obtain ⟨r, hr, k⟩ := step_admin_xyk I hc hi e hp
    refine ⟨r, hr, ?_⟩
    rcases k with k | k
    · exact k
    · rw [hx q] at k; simp at k
  · exact absurd q hs
  · obtain ⟨cfg, h1, rfl⟩ := ha
    obtain ⟨k1, k2⟩ := step_admin_stake I e q h1
    exact ⟨cfg, k1, k2⟩
  · obtain ⟨v, hv, rfl⟩ := ha
    obtain ⟨u, hu, k⟩ := step_admin_vest I hc hi e hv
    exact ⟨u, hu, k⟩
  · obtain ⟨f, hf, rfl⟩ := ha
    obtain ⟨f', hf', k, -⟩ := g.fac a f hf
    exact ⟨f', hf', k⟩
  · obtain ⟨m, hm, rfl⟩ := ha
    exact ⟨m, g.hop a m hm, rfl⟩
  · obtain ⟨cfg, h1, rfl⟩ := ha
    obtain ⟨k1, k2⟩ := g.rew a cfg h1
    exact ⟨cfg, k1, k2⟩

theorem run_admin (hh : HostOK h acct) {a admin : Addr} : ∀ {us : List Tx} {w : World}, Inv h acct w → (∀ t ∈ us, Possible acct t) →
    adminOf w a = some admin → w.code a ≠ .stable → (w.code a = .xyk → ∀ t ∈ us, t.ctx.signed admin = false) →
    adminOf (run h w us) a = some admin
  | [], w, I, hp, ha, hs, hx => ha
  | t :: us, w, I, hp, ha, hs, hx => by
    have ht := hp t (by simp)
    obtain ⟨I1, -⟩ := exec_inv hh I ht
    have key : adminOf (exec h w t) a = some admin ∧ (exec h w t).code a = w.code a := by
      unfold exec
      split
      · rename_i w1 e
        exact step_admin hh I ht.2 ht.1 e ha hs (fun q => hx q t (by simp))
      · exact ⟨ha, rfl⟩
    have := run_admin hh (us := us) I1 (fun t' h' => hp t' (by simp [h'])) key.1 (by rw [key.2]; exact hs)
      (fun q t' h' => hx (by rw [← key.2]; exact q) t' (by simp [h']))
    exact this

/-- **C93** The administrators of the factory, the router, of stake, reward and vesting contracts are
fixed for ever by `initialize`. -/
theorem C93_admin_permanent (hh : HostOK h acct) (g : Genesis acct w0) {ts us : List Tx} (hp : ∀ t ∈ ts, Possible acct t)
    (hu : ∀ t ∈ us, Possible acct t) {a admin : Addr} (ha : adminOf (run h w0 ts) a = some admin)
    (hk : (run h w0 ts).code a ≠ .xyk ∧ (run h w0 ts).code a ≠ .stable) :
    adminOf (run h (run h w0 ts) us) a = some admin := by
  obtain ⟨I, -⟩ := run_inv hh (Phoenix.World.genesis_inv (h := h) g) hp
  exact run_admin hh I hu ha hk.2 (fun q => absurd q hk.1)

/-- **C93** Apart from stable pools, a contract whose administrator signs nothing keeps that
administrator and its code: whatever others do, in every order, an attempt to replace the code
not signed by the administrator fails. -/
theorem C93_code_safe (hh : HostOK h acct) (g : Genesis acct w0) {ts us : List Tx} (hp : ∀ t ∈ ts, Possible acct t)
    (hu : ∀ t ∈ us, Possible acct t) {a admin : Addr} (ha : adminOf (run h w0 ts) a = some admin)
    (hk : (run h w0 ts).code a ≠ .stable) (hs : ∀ t ∈ us, t.ctx.signed admin = false)
    {c : Ctx} (hi : c.invoker = none) (hc : c.signed admin = false) :
    adminOf (run h (run h w0 ts) us) a = some admin ∧ replace (run h (run h w0 ts) us) c a ≠ .ok () := by
  obtain ⟨I, -⟩ := run_inv hh (Phoenix.World.genesis_inv (h := h) g) hp
  have k := run_admin hh I hu ha hk (fun _ => hs)
  refine ⟨k, fun e => ?_⟩
  obtain ⟨ad, h1, h2⟩ := C93_replace_iff.1.mp e
  rw [k] at h1; cases h1
  simp [Ctx.auth, hi, hc] at h2

/-- **C93** Stable pools are the exception: in every state with an initialised stable pool any account `z`
can, with a call signed by nobody, become its administrator and then replace its code, and
with it take everything the pool holds. -/
theorem C93_stable_taken_over {w : World} {a z : Addr} {p : Stable.State} (ha : w.code a = .stable) (hp : w.stable a = some p)
    (c c' : Ctx) (hz : c'.signed z = true) :
    ∃ w', step h w c (.stable a (.updateConfig p.admin { newAdmin := some z })) = .ok w' ∧
      w'.led = w.led ∧ replace w' c' a = .ok () := by
  refine ⟨{ w with stable := upd w.stable a (some { p with admin := z }) }, ?_, rfl, ?_⟩
  · simp only [step, bind_ok, expect_ok, ok_inj]
    refine ⟨(), ha, ⟨some { p with admin := z }, w.led⟩, ?_, rfl⟩
    simp only [Stable.step, hp, Stable.loaded, bind_ok]
    refine ⟨p, rfl, { p with admin := z }, ?_, rfl⟩
    unfold Stable.updateConfig
    simp only [bind_ok, req_ok, validateBpsOpt_ok, ok_inj]
    refine ⟨(), trivial, (), ?_, (), ?_, (), ?_, rfl⟩ <;> simp
  · rw [C93_replace_iff.1]
    refine ⟨z, ?_, by simp [Ctx.auth, hz]⟩
    unfold adminOf
    simp only [ha, upd_same, Option.map_some]

/-- **C93** `initialize` of a factory: exactly once, with a whitelist that is not empty, while the address
of its router is free; anybody can call it, and it stores its arguments, an empty registry and a router
that belongs to the same administrator and to this factory. -/
theorem C93_factory_init {w w' : World} {c : Ctx} {F admin : Addr} {lp stb stk tok dec : Nat} {wl : List Addr}
    (hclean : w.hop (h.hopAddr F admin) = none) :
    step h w c (.facInit F admin lp stb stk tok wl dec) = .ok w' ↔
      w.code F = .factory ∧ w.fac F = none ∧ wl ≠ [] ∧ w.code (h.hopAddr F admin) = .none ∧
      w' = { w with
        code := upd w.code (h.hopAddr F admin) .multihop
        hop := upd w.hop (h.hopAddr F admin) (some ⟨admin, F⟩)
        fac := upd w.fac F (some
          { admin := admin, multihop := h.hopAddr F admin, lpHash := lp, stableHash := stb, stakeHash := stk, tokenHash := tok,
            whitelist := wl, lpDecimals := dec, pools := [], pair := fun _ _ => none }) } := by
  simp only [step, facInit, bind_ok, expect_ok, req_ok, deploy_ok, ok_inj, Multihop.init, Option.isNone_iff_eq_none]
  constructor
  · rintro ⟨_, h1, _, h2, _, h3, w1, ⟨h4, rfl⟩, m, ⟨_, -, rfl⟩, rfl⟩
    exact ⟨h1, h2, h3, h4, rfl⟩
  · rintro ⟨h1, h2, h3, h4, rfl⟩
    exact ⟨(), h1, (), h2, (), h3, _, ⟨h4, rfl⟩, _, ⟨(), hclean, rfl⟩, rfl⟩

/-- **C93** In every reachable state the hypothesis of `C93_factory_init` holds for a free address. -/
theorem C93_router_clean (hh : HostOK h acct) (g : Genesis acct w0) {ts : List Tx} (hp : ∀ t ∈ ts, Possible acct t) {H : Addr}
    (hH : (run h w0 ts).code H = .none) : (run h w0 ts).hop H = none := by
  obtain ⟨I, -⟩ := run_inv hh (Phoenix.World.genesis_inv (h := h) g) hp
  cases e : (run h w0 ts).hop H with
  | none => rfl
  | some m => have := I.refs.hop H m e; rw [hH] at this; simp at this

/-- **C93** `initialize` of a router: exactly once; anybody can call it; it stores administrator and factory. -/
theorem C93_router_init {w w' : World} {c : Ctx} {H admin F : Addr} :
    step h w c (.hopInit H admin F) = .ok w' ↔
      w.code H = .multihop ∧ w.hop H = none ∧ w' = { w with hop := upd w.hop H (some ⟨admin, F⟩) } := by
  simp only [step, bind_ok, expect_ok, req_ok, ok_inj, Multihop.init, Option.isNone_iff_eq_none]
  constructor
  · rintro ⟨_, h1, m, ⟨_, h2, rfl⟩, rfl⟩; exact ⟨h1, h2, rfl⟩
  · rintro ⟨h1, h2, rfl⟩; exact ⟨(), h1, _, ⟨(), h2, rfl⟩, rfl⟩

/-- **C93** `update_wasm_hashes` and `update` of the factory: accepted exactly if its administrator
authorises; the hashes given replace the old ones, those not given and everything else stay. -/
theorem C93_hashes {w w' : World} {c : Ctx} {F : Addr} {f : Factory.State} (hF : w.code F = .factory) (hf : w.fac F = some f) :
    (∀ lp stk tok, step h w c (.hashes F lp stk tok) = .ok w' ↔ c.auth f.admin = true ∧
      w' = { w with fac := upd w.fac F (some { f with
        lpHash := lp.getD f.lpHash, stakeHash := stk.getD f.stakeHash, tokenHash := tok.getD f.tokenHash }) }) ∧
    (∀ stb, step h w c (.facUpdate F stb) = .ok w' ↔ c.auth f.admin = true ∧
      w' = { w with fac := upd w.fac F (some { f with stableHash := stb }) }) := by
  refine ⟨fun lp stk tok => ?_, fun stb => ?_⟩
  all_goals
    simp only [step, bind_ok, expect_ok, ok_inj, hf, Factory.loaded, Factory.updateHashes, Factory.update, requireAuth_ok]
    constructor
    · rintro ⟨_, -, _, rfl, _, ⟨_, h1, rfl⟩, rfl⟩; exact ⟨h1, rfl⟩
    · rintro ⟨h1, rfl⟩; exact ⟨(), hF, _, rfl, _, ⟨(), h1, rfl⟩, rfl⟩

/-- In the example world: the administrators after set-up; account 3 can replace nothing, except the
code of the stable pool after a call that nobody signs. -/
example :
    let w := run Example.host Example.start (Example.setup ++ Example.liquidity)
    let nobody : Ctx := { now := 10, seq := 20, signed := fun _ => false }
    let w' := run Example.host w [⟨nobody, .stable Example.pool2 (.updateConfig 8 { newAdmin := some 3 })⟩]
    adminOf w 50 = some 8 ∧ adminOf w Example.router = some 8 ∧ adminOf w Example.pool1 = some 8 ∧
    adminOf w (Example.host.stakeAddr Example.pool1) = some 8 ∧
    replace w (Example.by' 8) Example.pool1 = .ok () ∧ replace w (Example.by' 3) Example.pool1 = .error .auth ∧
    replace w (Example.by' 3) Example.pool2 = .error .auth ∧ replace w' (Example.by' 3) Example.pool2 = .ok () ∧
    replace w (Example.by' 8) 60 = .error .panic := by
  decide +kernel

end Phoenix.Props.Admin
