import Verif.Props.AvailToken
import Verif.Lemmas.Store
import Verif.Spec.StoreToken
/-! C120 for the token contract: run on the key-value store that its source uses, it behaves exactly
as the record model. -/
namespace Phoenix.Store.Token
open Phoenix Phoenix.Store

variable {σ : Store} {t : Phoenix.Token} {c : Ctx}

theorem kBal_inj {a b : Addr} : kBal a = kBal b ↔ a = b := by
  unfold kBal; simp

theorem kAllow_inj {a b x y : Addr} : kAllow a b = kAllow x y ↔ a = x ∧ b = y := by
  unfold kAllow; simp

theorem readAdmin_eq (h : Holds σ t) : readAdmin σ = .ok t.admin := load_of h.admin rfl
theorem readDecimals_eq (h : Holds σ t) : readDecimals σ = .ok t.decimals := load_of h.decimals rfl

theorem readBal_eq (h : Holds σ t) (a : Addr) : readBal σ a = .ok (t.bal a) := by
  rcases h.bal a with h1 | ⟨h1, h2⟩
  · exact loadOr_of h1 rfl
  · rw [h2]; exact loadOr_none h1

theorem readAllow_eq (h : Holds σ t) (seq : Nat) (a b : Addr) :
    readAllow σ seq a b = .ok (t.readAllowance seq a b) := by
  have hl : loadOr σ .temp (kAllow a b) asAllowance ⟨0, 0⟩ = .ok (t.allow a b) := by
    rcases h.allow a b with h1 | ⟨h1, h2⟩
    · exact loadOr_of h1 rfl
    · rw [h2]; exact loadOr_none h1
  unfold readAllow Phoenix.Token.readAllowance
  rw [hl]; rfl

theorem writeBal_holds (h : Holds σ t) (a : Addr) (x : Int) : Holds (writeBal σ a x) { t with bal := upd t.bal a x } := by
  refine ⟨?_, ?_, ?_, ?_, ?_⟩
  · simp [writeBal, h.admin]
  · simp [writeBal, h.decimals]
  · intro b
    show get (writeBal σ a x) .pers (kBal b) = _ ∨ _
    unfold writeBal
    by_cases hb : b = a
    · subst hb; left; simp [upd]
    · have hne : kBal b ≠ kBal a := fun e => hb (kBal_inj.mp e)
      have := h.bal b
      simp only [get_set, true_and]
      rw [if_neg hne]
      simp only [upd, hb, if_false]
      have e : ∀ k, k ≠ kBal a → (if k = kBal a then some (Cell.i128 x) else get σ .pers k) = get σ .pers k := fun k hk => if_neg hk
      show get σ .pers (kBal b) = _ ∨ _
      have e2 := e (kBal b) hne
      unfold kBal at e2 this ⊢
      rw [e2]
      exact this
  · intro p q
    have := h.allow p q
    simpa [writeBal] using this
  · intro d k hk
    unfold writeBal at hk
    rw [get_set] at hk
    split at hk
    · rename_i he; right; left; exact ⟨he.1, a, he.2⟩
    · exact h.only d k hk

theorem setAllow_holds (h : Holds σ t) (a b : Addr) (x : Allowance) :
    Holds (set σ .temp (kAllow a b) (.allowance x)) { t with allow := upd t.allow a (upd (t.allow a) b x) } := by
  refine ⟨?_, ?_, ?_, ?_, ?_⟩
  · simp [h.admin]
  · simp [h.decimals]
  · intro p
    have := h.bal p
    simpa using this
  · intro p q
    have hp := h.allow p q
    by_cases hb : p = a ∧ q = b
    · obtain ⟨rfl, rfl⟩ := hb
      left
      show get _ .temp (kAllow p q) = _
      simp [upd]
    · have hne : ¬ (Dur.temp = Dur.temp ∧ kAllow p q = kAllow a b) := fun e => hb (kAllow_inj.mp e.2)
      have e1 : get (set σ .temp (kAllow a b) (.allowance x)) .temp (kAllow p q) = get σ .temp (kAllow p q) := by
        rw [get_set, if_neg hne]
      have e2 : upd t.allow a (upd (t.allow a) b x) p q = t.allow p q := by
        unfold upd
        by_cases h1 : p = a
        · subst h1
          have h2 : q ≠ b := fun e => hb ⟨rfl, e⟩
          simp [h2]
        · simp [h1]
      unfold kAllow at e1
      simp only [e2]
      rw [show (set σ .temp (kAllow a b) (.allowance x)) = (set σ .temp (.cons (.sym "Allowance") (.cons (.mcons "from" (.addr a) (.mcons "spender" (.addr b) .mnil)) .nil)) (.allowance x)) from rfl, e1]
      exact hp
  · intro d k hk
    rw [get_set] at hk
    split at hk
    · rename_i he; right; right; exact ⟨he.1, a, b, he.2⟩
    · exact h.only d k hk

theorem receive_same (h : Holds σ t) (a : Addr) (x : Int) : Same Holds (receive σ a x) (t.receive a x) := by
  unfold receive Phoenix.Token.receive
  rw [readBal_eq h, ok_bind']
  exact Same.bind_same fun b _ => writeBal_holds h a b

theorem spend_same (h : Holds σ t) (a : Addr) (x : Int) : Same Holds (spend σ a x) (t.spend a x) := by
  unfold spend Phoenix.Token.spend
  rw [readBal_eq h, ok_bind']
  exact Same.bind_same fun _ _ => Same.bind_same fun b _ => writeBal_holds h a b

theorem writeAllow_same (h : Holds σ t) (seq : Nat) (a b : Addr) (x : Int) (e : Nat) :
    Same Holds (writeAllow σ seq a b x e) (t.writeAllowance seq a b x e) := by
  unfold writeAllow Phoenix.Token.writeAllowance
  exact Same.bind_same fun _ _ => setAllow_holds h a b ⟨x, e⟩

theorem spendAllow_same (h : Holds σ t) (seq : Nat) (a b : Addr) (x : Int) :
    Same Holds (spendAllow σ seq a b x) (t.spendAllowance seq a b x) := by
  unfold spendAllow Phoenix.Token.spendAllowance
  rw [readAllow_eq h, ok_bind']
  refine Same.bind_same fun _ _ => ?_
  split
  · exact Same.bind_same fun r _ => writeAllow_same h seq a b r _
  · exact h

theorem call_same (h : Holds σ t) (op : TokenOp) : Same Holds (call c σ op) (t.call c op) := by
  cases op with
  | mint a x =>
    simp only [call, Phoenix.Token.call, mint, Phoenix.Token.mint, readAdmin_eq h, ok_bind']
    exact Same.bind_same fun _ _ => Same.bind_same fun _ _ => receive_same h a x
  | setAdmin a =>
    simp only [call, Phoenix.Token.call, setAdmin, Phoenix.Token.setAdmin, readAdmin_eq h, ok_bind']
    refine Same.bind_same fun _ _ => ?_
    refine ⟨?_, ?_, ?_, ?_, ?_⟩
    · simp [writeAdmin, kAdmin]
    · simp [writeAdmin, kAdmin, h.decimals]
    · intro b; have := h.bal b; simpa [writeAdmin] using this
    · intro p q; have := h.allow p q; simpa [writeAdmin] using this
    · intro d k hk
      unfold writeAdmin at hk
      rw [get_set] at hk
      split at hk
      · rename_i he; left; exact ⟨he.1, Or.inl he.2⟩
      · exact h.only d k hk
  | approve a b x e =>
    simp only [call, Phoenix.Token.call, approve, Phoenix.Token.approve]
    exact Same.bind_same fun _ _ => Same.bind_same fun _ _ => writeAllow_same h _ a b x e
  | transfer a b x =>
    simp only [call, Phoenix.Token.call, transfer, Phoenix.Token.transfer]
    exact Same.bind_same fun _ _ => Same.bind_same fun _ _ => Same.bind (spend_same h a x) fun _ _ h1 => receive_same h1 b x
  | transferFrom s a b x =>
    simp only [call, Phoenix.Token.call, transferFrom, Phoenix.Token.transferFrom]
    exact Same.bind_same fun _ _ => Same.bind_same fun _ _ => Same.bind (spendAllow_same h _ a s x) fun _ _ h1 =>
      Same.bind (spend_same h1 a x) fun _ _ h2 => receive_same h2 b x
  | burn a x =>
    simp only [call, Phoenix.Token.call, burn, Phoenix.Token.burn]
    exact Same.bind_same fun _ _ => Same.bind_same fun _ _ => spend_same h a x
  | burnFrom s a x =>
    simp only [call, Phoenix.Token.call, burnFrom, Phoenix.Token.burnFrom]
    exact Same.bind_same fun _ _ => Same.bind_same fun _ _ => Same.bind (spendAllow_same h _ a s x) fun _ _ h1 =>
      spend_same h1 a x

end Phoenix.Store.Token

namespace Phoenix.Props
open Phoenix Phoenix.Store

/-- C120: a token is constructed with exactly the record's variables in its store, or not at all. -/
theorem C120_token_construct (admin : Addr) (decimals : Nat) :
    Same Store.Token.Holds (Store.Token.construct admin decimals) (Phoenix.Token.construct admin decimals) := by
  unfold Store.Token.construct Phoenix.Token.construct
  refine Same.bind_same fun _ _ => ?_
  refine ⟨?_, ?_, ?_, ?_, ?_⟩
  · simp [Store.Token.writeMeta, Store.Token.writeAdmin, Store.Token.kMeta, Store.Token.kAdmin]
  · simp [Store.Token.writeMeta, Store.Token.writeAdmin, Store.Token.kMeta, Store.Token.kAdmin]
  · intro a; right
    refine ⟨?_, rfl⟩
    simp [Store.Token.writeMeta, Store.Token.writeAdmin, show ∀ d k, Store.get [] d k = none from fun _ _ => rfl]
  · intro a b; right
    refine ⟨?_, rfl⟩
    simp [Store.Token.writeMeta, Store.Token.writeAdmin, show ∀ d k, Store.get [] d k = none from fun _ _ => rfl]
  · intro d k hk
    simp only [Store.Token.writeMeta, Store.Token.writeAdmin, get_set] at hk
    split at hk
    · rename_i he; left; exact ⟨he.1, Or.inr he.2⟩
    · split at hk
      · rename_i he; left; exact ⟨he.1, Or.inl he.2⟩
      · exact absurd rfl hk

/-- C120: every call on a token, made on its store, has the outcome of the record model: the same
failure, or success with a store that again holds exactly the new record; and the balance, allowance
and decimals read from the store are the record's. -/
theorem C120_token_call {σ : Store} {t : Phoenix.Token} (h : Store.Token.Holds σ t) (c : Ctx) (op : TokenOp) :
    Same Store.Token.Holds (Store.Token.call c σ op) (t.call c op) ∧
      (∀ a, Store.Token.readBal σ a = .ok (t.bal a)) ∧
      (∀ a b, Store.Token.allowance c σ a b = .ok (t.allowanceOf c a b)) ∧
      Store.Token.readDecimals σ = .ok t.decimals :=
  ⟨Store.Token.call_same h op, Store.Token.readBal_eq h, fun a b => by
    unfold Store.Token.allowance
    rw [Store.Token.readAllow_eq h]; rfl, Store.Token.readDecimals_eq h⟩

/-- C120: over any history of calls, failed ones included, the token's store holds exactly the record. -/
theorem C120_token_history {σ : Store} {t : Phoenix.Token} (h : Store.Token.Holds σ t) (ts : List (Ctx × TokenOp)) :
    Store.Token.Holds (Store.Token.run σ ts)
      (ts.foldl (fun t x => match t.call x.1 x.2 with | .ok t' => t' | .error _ => t) t) := by
  induction ts generalizing σ t with
  | nil => exact h
  | cons x ts ih =>
    have hs := Store.Token.call_same (c := x.1) h x.2
    show Store.Token.Holds (Store.Token.run (Store.Token.exec σ x) ts) (ts.foldl _ _)
    refine ih ?_
    unfold Store.Token.exec
    cases h1 : Store.Token.call x.1 σ x.2 with
    | error e =>
      cases h2 : t.call x.1 x.2 with
      | error e' => simp only [h2]; exact h
      | ok s => rw [h1, h2] at hs; exact hs.elim
    | ok a =>
      cases h2 : t.call x.1 x.2 with
      | error e' => rw [h1, h2] at hs; exact hs.elim
      | ok b => simp only [h2]; rw [h1, h2] at hs; exact hs

/-! The history of Props/AvailToken, run on the store of a new token. -/
example : ((Store.Token.construct 9 7).toOption.map fun σ => Store.Token.readBal (Store.Token.run σ exTokHist) 1) =
      some (.ok 300) ∧
    ((Store.Token.construct 9 7).toOption.map fun σ =>
      Store.Token.allowance exCtx (Store.Token.run σ exTokHist) 1 5) = some (.ok 30) ∧
    (Store.Token.construct 9 19).toOption.isSome = false := by decide +kernel
example : ∃ σ t, Store.Token.construct 9 7 = .ok σ ∧ Phoenix.Token.construct 9 7 = .ok t ∧ Store.Token.Holds σ t :=
  ⟨_, _, rfl, rfl, C120_token_construct 9 7⟩

end Phoenix.Props
