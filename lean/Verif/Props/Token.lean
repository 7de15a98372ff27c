import Verif.Lemmas.Token
import Verif.Spec.Token
/-! Property theorems about the token contract: C21 - C24. -/
namespace Phoenix.Props
open Phoenix Spec

/-- Everything a successful token call tells us (helper for the theorems below). -/
theorem token_call_inv {c : Ctx} {t t' : Token} {op : TokenOp} (h : t.call c op = .ok t') :
    (∀ a, t'.bal a = t.bal a + effect op a) ∧
    (t'.admin ≠ t.admin → c.auth t.admin = true) ∧ t'.decimals = t.decimals := by
  cases op with
  | mint d x =>
    simp only [Token.call, Token.mint_ok] at h
    obtain ⟨_, _, _, rfl⟩ := h
    refine ⟨fun a => ?_, fun h => absurd rfl h, rfl⟩
    simp only [effect, upd_apply]
    by_cases ha : a = d
    · subst ha; simp
    · simp [ha, Ne.symm ha]
  | setAdmin n =>
    simp only [Token.call, Token.setAdmin, bind_ok, requireAuth_ok, ok_inj] at h
    obtain ⟨_, h, rfl⟩ := h
    exact ⟨fun a => by simp [effect], fun _ => h, rfl⟩
  | approve o s x e =>
    simp only [Token.call, Token.approve, Token.checkNonneg, bind_ok, requireAuth_ok, req_ok,
      Token.writeAllowance_ok] at h
    obtain ⟨_, _, _, _, _, rfl⟩ := h
    exact ⟨fun a => by simp [effect], fun h => absurd rfl h, rfl⟩
  | transfer s d x =>
    simp only [Token.call, Token.transfer_ok] at h
    obtain ⟨_, _, _, _, _, rfl⟩ := h
    exact ⟨fun a => Token.move_apply _ _ _ _ _, fun h => absurd rfl h, rfl⟩
  | transferFrom sp s d x =>
    simp only [Token.call, Token.transferFrom, Token.checkNonneg, bind_ok, requireAuth_ok, req_ok,
      Token.spend_ok, Token.receive_ok] at h
    obtain ⟨_, _, _, _, t1, h1, _, ⟨_, _, rfl⟩, _, rfl⟩ := h
    obtain ⟨_, hb, ha, hd, _⟩ := Token.spendAllowance_ok h1
    refine ⟨fun a => ?_, fun h => absurd ha h, hd⟩
    simp only [← hb]
    exact Token.move_apply _ _ _ _ _
  | burn s x =>
    simp only [Token.call, Token.burn_ok] at h
    obtain ⟨_, _, _, _, rfl⟩ := h
    refine ⟨fun a => ?_, fun h => absurd rfl h, rfl⟩
    simp only [effect, upd_apply]
    by_cases ha : a = s
    · subst ha; simp; ring
    · simp [ha, Ne.symm ha]
  | burnFrom sp s x =>
    simp only [Token.call, Token.burnFrom, Token.checkNonneg, bind_ok, requireAuth_ok, req_ok,
      Token.spend_ok] at h
    obtain ⟨_, _, _, _, t1, h1, _, _, rfl⟩ := h
    obtain ⟨_, hb, ha, hd, _⟩ := Token.spendAllowance_ok h1
    refine ⟨fun a => ?_, fun h => absurd ha h, hd⟩
    simp only [effect, upd_apply, hb]
    by_cases ha : a = s
    · subst ha; simp; ring
    · simp [ha, Ne.symm ha]

/-- **C21** Every successful token call changes each balance by exactly the
amount its name promises, for every account, also when parties coincide. -/
theorem C21_exact_effect {c : Ctx} {t t' : Token} {op : TokenOp} (h : t.call c op = .ok t')
    (a : Addr) : t'.bal a = t.bal a + effect op a := (token_call_inv h).1 a

theorem sum_indicator (S : Finset Addr) (d : Addr) (x : Int) (h : d ∈ S) :
    ∑ a ∈ S, (if d = a then x else 0) = x := by
  rw [Finset.sum_ite_eq]; simp [h]

/-- **C21** Over any finite set of accounts containing the parties of the call,
transfers and approvals conserve the sum of balances, mint adds exactly the
amount, burn removes exactly the amount. -/
theorem C21_supply {c : Ctx} {t t' : Token} {op : TokenOp} (h : t.call c op = .ok t')
    (S : Finset Addr) (hS : ∀ a ∈ parties op, a ∈ S) :
    supply S t' = supply S t + supplyChange op := by
  unfold supply
  rw [Finset.sum_congr rfl (fun a _ => C21_exact_effect h a), Finset.sum_add_distrib]
  congr 1
  cases op with
  | mint d x => exact sum_indicator S d x (hS d (by simp [parties]))
  | setAdmin n => simp [effect, supplyChange]
  | approve o s x e => simp [effect, supplyChange]
  | transfer s d x =>
    simp only [effect, Finset.sum_sub_distrib, supplyChange]
    rw [sum_indicator S d x (hS d (by simp [parties])), sum_indicator S s x (hS s (by simp [parties]))]
    ring
  | transferFrom sp s d x =>
    simp only [effect, Finset.sum_sub_distrib, supplyChange]
    rw [sum_indicator S d x (hS d (by simp [parties])), sum_indicator S s x (hS s (by simp [parties]))]
    ring
  | burn s x =>
    simp only [effect, Finset.sum_neg_distrib, supplyChange]
    rw [sum_indicator S s x (hS s (by simp [parties]))]
  | burnFrom sp s x =>
    simp only [effect, Finset.sum_neg_distrib, supplyChange]
    rw [sum_indicator S s x (hS s (by simp [parties]))]

/-- **C21** Accounts that are not a party keep their balance. -/
theorem C21_others_unchanged {c : Ctx} {t t' : Token} {op : TokenOp} (h : t.call c op = .ok t')
    (a : Addr) (ha : a ∉ parties op) : t'.bal a = t.bal a := by
  rw [C21_exact_effect h a]
  cases op <;> simp [parties, effect] at * <;> grind

/-- **C21** The amount moved is never negative and never more than the payer has. -/
theorem C21_amount_bounds {c : Ctx} {t t' : Token} {s d : Addr} {x : Int}
    (h : t.call c (.transfer s d x) = .ok t') : 0 ≤ x ∧ x ≤ t.bal s := by
  simp only [Token.call, Token.transfer_ok] at h
  exact ⟨h.2.1, h.2.2.1⟩

/-! Non-vacuity: concrete successful calls. -/
/-- a token with 100 units on account 1, admin 9 -/
def exTok : Token := { admin := 9, decimals := 7, bal := upd (fun _ => 0) 1 100,
                       allow := upd (fun _ _ => ⟨0, 0⟩) 1 (upd (fun _ => ⟨0, 0⟩) 5 ⟨30, 50⟩) }
/-- everybody signs -/
def exCtx : Ctx := { now := 10, seq := 20, signed := fun _ => true }
example : ∃ t', exTok.call exCtx (.transfer 1 2 40) = .ok t' ∧ t'.bal 1 = 60 ∧ t'.bal 2 = 40 :=
  ⟨_, rfl, rfl, rfl⟩
example : ∃ t', exTok.call exCtx (.transfer 1 1 40) = .ok t' ∧ t'.bal 1 = 100 := ⟨_, rfl, rfl⟩
example : ∃ t', exTok.call exCtx (.transferFrom 5 1 2 30) = .ok t' ∧ t'.bal 2 = 30 ∧
    t'.allowanceOf exCtx 1 5 = 0 := ⟨_, rfl, rfl, rfl⟩

/-! ### C22 -/

/-- All balances and stored allowances are valid non-negative i128 values. -/
def TokenOK (t : Token) : Prop :=
  (∀ a, 0 ≤ t.bal a ∧ t.bal a ≤ I128_MAX) ∧
  (∀ o s, 0 ≤ (t.allow o s).amount ∧ (t.allow o s).amount ≤ I128_MAX)

theorem readAllowance_amount_le {t : Token} (h : TokenOK t) (seq o s : Nat) :
    (t.readAllowance seq o s).amount ≤ I128_MAX ∧ 0 ≤ (t.readAllowance seq o s).amount := by
  unfold Token.readAllowance
  simp only
  split
  · exact ⟨I128_MAX_nonneg, le_refl _⟩
  · exact ⟨(h.2 o s).2, (h.2 o s).1⟩

theorem allow_upd_ok {al : Addr → Addr → Allowance} {o s : Addr} {v : Allowance}
    (h : ∀ o s, 0 ≤ (al o s).amount ∧ (al o s).amount ≤ I128_MAX)
    (hv : 0 ≤ v.amount ∧ v.amount ≤ I128_MAX) (o' s' : Addr) :
    0 ≤ (upd al o (upd (al o) s v) o' s').amount ∧
      (upd al o (upd (al o) s v) o' s').amount ≤ I128_MAX := by
  rw [upd2_apply]
  split
  · exact hv
  · exact h o' s'

theorem spendAllowance_keeps {t t' : Token} {seq o s : Nat} {x : Int} (h : TokenOK t)
    (hc : t.spendAllowance seq o s x = .ok t') : TokenOK t' := by
  obtain ⟨h1, hb, _, _, h2⟩ := Token.spendAllowance_ok hc
  rcases h2 with ⟨rfl, _⟩ | ⟨hx, ha⟩
  · exact h
  · refine ⟨by rw [hb]; exact h.1, ?_⟩
    rw [ha]
    have := readAllowance_amount_le h seq o s
    exact allow_upd_ok h.2 ⟨by simp only; omega, by simp only; omega⟩

theorem token_spend_keeps {t t' : Token} {s : Addr} {x : Int} (h : TokenOK t) (hx : 0 ≤ x)
    (hc : t.spend s x = .ok t') : TokenOK t' := by
  rw [Token.spend_ok] at hc
  obtain ⟨h1, h2, rfl⟩ := hc
  refine ⟨fun a => ?_, h.2⟩
  simp only [upd_apply]
  split
  · exact ⟨by omega, h2.2⟩
  · exact h.1 a

theorem token_receive_keeps {t t' : Token} {s : Addr} {x : Int} (h : TokenOK t) (hx : 0 ≤ x)
    (hc : t.receive s x = .ok t') : TokenOK t' := by
  rw [Token.receive_ok] at hc
  obtain ⟨h2, rfl⟩ := hc
  refine ⟨fun a => ?_, h.2⟩
  simp only [upd_apply]
  have := h.1 s
  split
  · exact ⟨by omega, h2.2⟩
  · exact h.1 a

theorem token_call_keeps {c : Ctx} {t t' : Token} {op : TokenOp} (hop : Typed op) (h : TokenOK t)
    (hc : t.call c op = .ok t') : TokenOK t' := by
  cases op with
  | mint d x =>
    simp only [Token.call, Token.mint, Token.checkNonneg, bind_ok, requireAuth_ok, req_ok] at hc
    obtain ⟨_, h1, _, _, h2⟩ := hc
    exact token_receive_keeps h h1 h2
  | setAdmin n =>
    simp only [Token.call, Token.setAdmin, bind_ok, requireAuth_ok, ok_inj] at hc
    obtain ⟨_, _, rfl⟩ := hc
    exact h
  | approve o s x e =>
    simp only [Token.call, Token.approve, Token.checkNonneg, bind_ok, requireAuth_ok, req_ok,
      Token.writeAllowance_ok] at hc
    obtain ⟨_, _, _, h1, _, rfl⟩ := hc
    exact ⟨h.1, allow_upd_ok h.2 ⟨h1, hop.2⟩⟩
  | transfer s d x =>
    simp only [Token.call, Token.transfer, Token.checkNonneg, bind_ok, requireAuth_ok, req_ok] at hc
    obtain ⟨_, _, _, h1, _, h2, h3⟩ := hc
    exact token_receive_keeps (token_spend_keeps h h1 h2) h1 h3
  | transferFrom sp s d x =>
    simp only [Token.call, Token.transferFrom, Token.checkNonneg, bind_ok, requireAuth_ok, req_ok] at hc
    obtain ⟨_, _, _, h1, _, h0, _, h2, h3⟩ := hc
    exact token_receive_keeps (token_spend_keeps (spendAllowance_keeps h h0) h1 h2) h1 h3
  | burn s x =>
    simp only [Token.call, Token.burn, Token.checkNonneg, bind_ok, requireAuth_ok, req_ok] at hc
    obtain ⟨_, _, _, h1, h2⟩ := hc
    exact token_spend_keeps h h1 h2
  | burnFrom sp s x =>
    simp only [Token.call, Token.burnFrom, Token.checkNonneg, bind_ok, requireAuth_ok, req_ok] at hc
    obtain ⟨_, _, _, h1, _, h0, h2⟩ := hc
    exact token_spend_keeps (spendAllowance_keeps h h0) h1 h2

theorem token_run_keeps {t : Token} (ks : List (Ctx × TokenOp)) (hk : ∀ k ∈ ks, Typed k.2)
    (h : TokenOK t) : TokenOK (tokenRun t ks) := by
  induction ks generalizing t with
  | nil => exact h
  | cons k ks ih =>
    refine ih (fun k' h' => hk k' (by simp [h'])) ?_
    unfold tokenExec
    cases hc : t.call k.1 k.2 with
    | ok t' => exact token_call_keeps (hk k (by simp)) h hc
    | error e => exact h

/-- **C22** From the constructor on, after any history of calls (any signers, any
ledger sequence numbers, successful or not) every balance and every allowance that
can be read is between 0 and `i128::MAX`. -/
theorem C22_never_negative_never_overflow {admin dec : Nat} {t : Token}
    (h0 : Token.construct admin dec = .ok t) (ks : List (Ctx × TokenOp))
    (hk : ∀ k ∈ ks, Typed k.2) :
    (∀ a, 0 ≤ (tokenRun t ks).bal a ∧ (tokenRun t ks).bal a ≤ I128_MAX) ∧
    (∀ c o s, 0 ≤ (tokenRun t ks).allowanceOf c o s ∧
      (tokenRun t ks).allowanceOf c o s ≤ I128_MAX) := by
  have hinit : TokenOK t := by
    simp only [Token.construct, bind_ok, req_ok, ok_inj] at h0
    obtain ⟨_, _, rfl⟩ := h0
    exact ⟨fun _ => ⟨le_refl _, I128_MAX_nonneg⟩, fun _ _ => ⟨le_refl _, I128_MAX_nonneg⟩⟩
  have h := token_run_keeps ks hk hinit
  exact ⟨h.1, fun c o s => (readAllowance_amount_le h c.seq o s).symm⟩

example : ∃ t, Token.construct 9 7 = .ok t ∧
    (tokenRun t [(exCtx, .mint 1 500), (exCtx, .transfer 1 2 200), (exCtx, .burn 2 700)]).bal 2 = 200 :=
  ⟨_, rfl, rfl⟩
/-- a token whose amounts would leave the range is stopped by the overflow check -/
example : ∃ t, Token.construct 9 7 = .ok t ∧
    (tokenRun t [(exCtx, .mint 1 I128_MAX), (exCtx, .mint 1 1)]).bal 1 = I128_MAX := ⟨_, rfl, rfl⟩

/-! ### C23 -/

/-- One call lowers the stored allowance by at least what it spends under it. -/
theorem allowance_step {t : Token} {o s : Addr} (h : TokenOK t) (k : Ctx × TokenOp)
    (hk : isApproval o s k.2 = false) :
    spentByCall o s t k + ((tokenExec t k).allow o s).amount ≤ (t.allow o s).amount ∧
    0 ≤ spentByCall o s t k ∧
    ((tokenExec t k).allow o s).exp = (t.allow o s).exp ∧
    ((t.allow o s).exp < k.1.seq → spentByCall o s t k = 0) := by
  obtain ⟨c, op⟩ := k
  unfold spentByCall tokenExec
  cases hc : t.call c op with
  | error e => simp
  | ok t' =>
    -- effect of spending an allowance on the one entry
    have key : ∀ {o' s' : Addr} {x : Int} {t1 : Token}, 0 ≤ x →
        t.spendAllowance c.seq o' s' x = .ok t1 →
        (if s' = s ∧ o' = o then x else 0) + (t1.allow o s).amount ≤ (t.allow o s).amount ∧
        (t1.allow o s).exp = (t.allow o s).exp ∧
        ((t.allow o s).exp < c.seq → (if s' = s ∧ o' = o then x else 0) = (0:Int)) := by
      intro o' s' x t1 hx h1
      obtain ⟨hle, _, _, _, h2⟩ := Token.spendAllowance_ok h1
      have hread : (t.readAllowance c.seq o' s').amount ≤ (t.allow o' s').amount ∧
          (t.readAllowance c.seq o' s').exp = (t.allow o' s').exp ∧
          ((t.allow o' s').exp < c.seq → (t.readAllowance c.seq o' s').amount = 0) := by
        unfold Token.readAllowance; simp only
        have := h.2 o' s'
        split
        · exact ⟨this.1, rfl, fun _ => rfl⟩
        · rename_i hn; exact ⟨le_refl _, rfl, fun h => absurd h hn⟩
      by_cases hm : s' = s ∧ o' = o
      · obtain ⟨rfl, rfl⟩ := hm
        simp only [and_self, if_true]
        rcases h2 with ⟨rfl, hx0⟩ | ⟨hx0, ha⟩
        · exact ⟨by omega, rfl, fun _ => by omega⟩
        · rw [ha]; simp only [upd_same]
          refine ⟨by omega, hread.2.1, fun he => ?_⟩
          have := hread.2.2 he; omega
      · simp only [hm, if_false]
        rcases h2 with ⟨rfl, hx0⟩ | ⟨hx0, ha⟩
        · exact ⟨by omega, rfl, fun _ => trivial⟩
        · have : t1.allow o s = t.allow o s := by
            rw [ha, upd2_apply, if_neg (fun h => hm ⟨h.2.symm, h.1.symm⟩)]
          rw [this]; exact ⟨by omega, rfl, fun _ => trivial⟩
    cases op with
    | mint d x =>
      simp only [Token.call, Token.mint_ok] at hc
      obtain ⟨_, _, _, rfl⟩ := hc; simp
    | setAdmin n =>
      simp only [Token.call, Token.setAdmin, bind_ok, requireAuth_ok, ok_inj] at hc
      obtain ⟨_, _, rfl⟩ := hc; simp
    | approve o' s' x e =>
      simp only [Token.call, Token.approve, Token.checkNonneg, bind_ok, requireAuth_ok, req_ok,
        Token.writeAllowance_ok] at hc
      obtain ⟨_, _, _, _, _, rfl⟩ := hc
      simp only [isApproval, Bool.and_eq_false_iff, beq_eq_false_iff_ne] at hk
      have : upd t.allow o' (upd (t.allow o') s' ⟨x, e⟩) o s = t.allow o s := by
        rw [upd2_apply, if_neg]
        rintro ⟨rfl, rfl⟩
        simp at hk
      simp [this]
    | transfer s' d x =>
      simp only [Token.call, Token.transfer_ok] at hc
      obtain ⟨_, _, _, _, _, rfl⟩ := hc; simp
    | burn s' x =>
      simp only [Token.call, Token.burn_ok] at hc
      obtain ⟨_, _, _, _, rfl⟩ := hc; simp
    | transferFrom sp s' d x =>
      simp only [Token.call, Token.transferFrom, Token.checkNonneg, bind_ok, requireAuth_ok, req_ok,
        Token.spend_ok, Token.receive_ok] at hc
      obtain ⟨_, _, _, h0, t1, h1, _, ⟨_, _, rfl⟩, _, rfl⟩ := hc
      obtain ⟨k1, k2, k3⟩ := key h0 h1
      refine ⟨k1, ?_, k2, k3⟩
      dsimp only; split <;> omega
    | burnFrom sp s' x =>
      simp only [Token.call, Token.burnFrom, Token.checkNonneg, bind_ok, requireAuth_ok, req_ok,
        Token.spend_ok] at hc
      obtain ⟨_, _, _, h0, t1, h1, _, _, rfl⟩ := hc
      obtain ⟨k1, k2, k3⟩ := key h0 h1
      refine ⟨k1, ?_, k2, k3⟩
      dsimp only; split <;> omega

theorem tokenExec_keeps {t : Token} (k : Ctx × TokenOp) (hk : Typed k.2) (h : TokenOK t) :
    TokenOK (tokenExec t k) := by
  unfold tokenExec
  cases hc : t.call k.1 k.2 with
  | ok t' => exact token_call_keeps hk h hc
  | error e => exact h

/-- **C23** Over any history containing no further approval by `owner` for
`spender`, what `spender` takes from `owner` through its allowance totals at most
the allowance at the start, and whatever remains readable is at most the rest. -/
theorem C23_allowance_bounds_spending {t : Token} (h : TokenOK t) (owner spender : Addr)
    (ks : List (Ctx × TokenOp)) (hty : ∀ k ∈ ks, Typed k.2)
    (hno : ∀ k ∈ ks, isApproval owner spender k.2 = false) :
    spentBy owner spender t ks + ((tokenRun t ks).allow owner spender).amount
      ≤ (t.allow owner spender).amount := by
  induction ks generalizing t with
  | nil => simp [spentBy, tokenRun]
  | cons k ks ih =>
    have h1 := (allowance_step h k (hno k (by simp))).1
    have h2 := ih (tokenExec_keeps k (hty k (by simp)) h) (fun k' h' => hty k' (by simp [h']))
      (fun k' h' => hno k' (by simp [h']))
    simp only [spentBy, tokenRun, List.foldl_cons] at *
    omega

/-- **C23** After the expiration ledger nothing can be taken. -/
theorem C23_nothing_after_expiry {t : Token} (h : TokenOK t) (owner spender : Addr)
    (ks : List (Ctx × TokenOp)) (hty : ∀ k ∈ ks, Typed k.2)
    (hno : ∀ k ∈ ks, isApproval owner spender k.2 = false)
    (hexp : ∀ k ∈ ks, (t.allow owner spender).exp < k.1.seq) :
    spentBy owner spender t ks = 0 := by
  induction ks generalizing t with
  | nil => simp [spentBy]
  | cons k ks ih =>
    obtain ⟨_, _, h3, h4⟩ := allowance_step h k (hno k (by simp))
    have h2 := ih (tokenExec_keeps k (hty k (by simp)) h) (fun k' h' => hty k' (by simp [h']))
      (fun k' h' => hno k' (by simp [h'])) (fun k' h' => by rw [h3]; exact hexp k' (by simp [h']))
    simp only [spentBy]
    rw [h2, h4 (hexp k (by simp))]; rfl

/-- **C23** `approve` sets the readable allowance to exactly the approved amount
(until it expires), and only the owner's authorisation does so. -/
theorem C23_approve_sets {c c' : Ctx} {t t' : Token} {o s : Addr} {x : Int} {e : Nat}
    (h : t.call c (.approve o s x e) = .ok t') :
    c.auth o = true ∧ t'.allowanceOf c' o s = if e < c'.seq then 0 else x := by
  simp only [Token.call, Token.approve, Token.checkNonneg, bind_ok, requireAuth_ok, req_ok,
    Token.writeAllowance_ok] at h
  obtain ⟨_, h1, _, _, _, rfl⟩ := h
  refine ⟨h1, ?_⟩
  simp only [Token.allowanceOf, Token.readAllowance, upd2_apply, and_self, if_true]
  split <;> rfl

theorem exTok_ok : TokenOK exTok := by
  refine ⟨fun a => ?_, fun o s => ?_⟩
  · simp only [exTok, upd_apply]; split <;> decide
  · simp only [exTok, upd_apply]
    split
    · simp only [upd_apply]; split <;> decide
    · exact ⟨le_refl _, I128_MAX_nonneg⟩
/-- spender 5 holds an allowance of 30: of two attempts at 20 only the first works -/
example : spentBy 1 5 exTok [(exCtx, .transferFrom 5 1 2 20), (exCtx, .transferFrom 5 1 2 20),
    (exCtx, .burnFrom 5 1 7)] = 27 := rfl
example : (exTok.allow 1 5).exp < ({ exCtx with seq := 51 } : Ctx).seq := by decide

/-! ### C24 -/

/-- **C24** The admin changes only in a call the current admin authorised. -/
theorem C24_admin_change_authorised {c : Ctx} {t t' : Token} {op : TokenOp}
    (h : t.call c op = .ok t') (hne : t'.admin ≠ t.admin) : c.auth t.admin = true :=
  (token_call_inv h).2.1 hne

/-- **C24** The sum of balances over a set containing the parties grows only in a
call the current admin authorised. -/
theorem C24_supply_growth_authorised {c : Ctx} {t t' : Token} {op : TokenOp}
    (h : t.call c op = .ok t') (S : Finset Addr) (hS : ∀ a ∈ parties op, a ∈ S)
    (hgrow : supply S t < supply S t') : c.auth t.admin = true := by
  have h1 := C21_supply h S hS
  cases op with
  | mint d x =>
    simp only [Token.call, Token.mint_ok] at h
    exact h.2.1
  | burn s x =>
    simp only [Token.call, Token.burn_ok] at h
    simp only [supplyChange] at h1; omega
  | burnFrom sp s x =>
    simp only [Token.call, Token.burnFrom, Token.checkNonneg, bind_ok, requireAuth_ok, req_ok] at h
    obtain ⟨_, _, _, h0, _⟩ := h
    simp only [supplyChange] at h1; omega
  | setAdmin n => simp only [supplyChange] at h1; omega
  | approve o s x e => simp only [supplyChange] at h1; omega
  | transfer s d x => simp only [supplyChange] at h1; omega
  | transferFrom sp s d x => simp only [supplyChange] at h1; omega

/-- **C24** Over any history in which the admin signs nothing, the admin stays and
the supply (over any set containing all parties of the history) never grows. -/
theorem C24_no_inflation {t : Token} (ks : List (Ctx × TokenOp))
    (hk : ∀ k ∈ ks, k.1.auth t.admin = false) (S : Finset Addr)
    (hS : ∀ k ∈ ks, ∀ a ∈ parties k.2, a ∈ S) :
    (tokenRun t ks).admin = t.admin ∧ supply S (tokenRun t ks) ≤ supply S t := by
  induction ks generalizing t with
  | nil => exact ⟨rfl, le_refl _⟩
  | cons k ks ih =>
    have step : (tokenExec t k).admin = t.admin ∧ supply S (tokenExec t k) ≤ supply S t := by
      unfold tokenExec
      cases hc : t.call k.1 k.2 with
      | error e => exact ⟨rfl, le_refl _⟩
      | ok t' =>
        have hna := hk k (by simp)
        constructor
        · by_contra hne
          rw [C24_admin_change_authorised hc hne] at hna; simp at hna
        · by_contra hlt
          rw [C24_supply_growth_authorised hc S (hS k (by simp)) (by simp only at hlt; omega)] at hna
          simp at hna
    obtain ⟨h1, h2⟩ := ih (t := tokenExec t k)
      (fun k' h' => by rw [step.1]; exact hk k' (by simp [h'])) (fun k' h' => hS k' (by simp [h']))
    exact ⟨h1.trans step.1, h2.trans step.2⟩

/-- without the admin's signature a mint changes nothing -/
example : (tokenRun exTok [({ exCtx with signed := fun a => a == 1 }, .mint 1 5),
    ({ exCtx with signed := fun a => a == 1 }, .transfer 1 2 5)]).bal 1 = 95 := rfl
example : supply {1, 2} exTok = 100 := by decide

end Phoenix.Props
