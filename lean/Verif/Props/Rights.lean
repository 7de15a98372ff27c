import Verif.Lemmas.Rights
import Verif.Spec.Rights
import Verif.Props.World
/-!
C129: who can spend whose tokens, and who administers a token, is decided by calls of the token itself;
using pools, routers, stakes, vesting or any other contract grants nobody anything.
-/
namespace Phoenix.Props.World
open Phoenix Phoenix.World Phoenix.World.Spec

variable {h : Host} {acct : Accounts} {w0 w w' : World} {c : Ctx}

/-- **C129** A transaction that does not call an existing token itself leaves all allowances, the
administrator and the decimals of that token as they are, whatever else it does. -/
theorem C129_rights_kept (w : World) (t : Tx) {tok : Addr} (hex : w.code tok ≠ .none) (hn : ¬ CallsToken t tok) :
    ((exec h w t).led tok).allow = (w.led tok).allow ∧ ((exec h w t).led tok).admin = (w.led tok).admin ∧
    ((exec h w t).led tok).decimals = (w.led tok).decimals := by
  unfold exec
  split
  · rename_i w1 e
    by_cases hk : ∃ u op, t.call = .token u op
    · obtain ⟨u, op, hu⟩ := hk
      have hne : tok ≠ u := by rintro rfl; exact hn ⟨op, hu⟩
      rw [hu] at e
      simp only [step, bind_ok, ok_inj, expect_ok, Ledger.call] at e
      obtain ⟨_, h1, L, ⟨v, h2, rfl⟩, rfl⟩ := e
      simp only [upd_ne _ _ hne, and_self]
    · rcases step_rights (fun u op hu => hk ⟨u, op, hu⟩) e tok with ⟨k1, k2, k3⟩ | ⟨k1, -⟩
      · exact ⟨k2, k1, k3⟩
      · exact absurd k1 hex
  · exact ⟨rfl, rfl, rfl⟩

/-- **C129** An allowance grows only in a transaction that is a call of `approve` signed by the owner
of the tokens, and then to the amount named there. -/
theorem C129_only_approve (w : World) {t : Tx} (ht : Possible acct t) {tok a b : Addr}
    (hp : 0 < (((exec h w t).led tok).allow a b).amount)
    (hlt : ((w.led tok).allow a b).amount < (((exec h w t).led tok).allow a b).amount) :
    Approves t tok a b (((exec h w t).led tok).allow a b).amount := by
  unfold exec at hp hlt ⊢
  split at hp
  · rename_i w1 e
    simp only [e] at hlt ⊢
    by_cases hk : ∃ u op, t.call = .token u op
    · obtain ⟨u, op, hu⟩ := hk
      rw [hu] at e
      simp only [step, bind_ok, ok_inj, expect_ok, Ledger.call] at e
      obtain ⟨_, h1, L, ⟨v, h2, rfl⟩, rfl⟩ := e
      by_cases hne : tok = u
      · subst hne
        simp only [upd_same] at hp hlt ⊢
        obtain ⟨h3, exp, rfl⟩ := call_allow h2 hp hlt
        refine ⟨?_, exp, hu⟩
        simpa [Ctx.auth, ht.1] using h3
      · simp only [upd_ne _ _ hne] at hlt
        omega
    · rcases step_rights (fun u op hu => hk ⟨u, op, hu⟩) e tok with ⟨k1, k2, k3⟩ | ⟨k1, k2⟩
      · rw [k2] at hlt; omega
      · rw [k2] at hp; omega
  · rename_i e
    simp only [e] at hlt
    omega

/-- **C129** Whoever may spend tokens of `a` after a history could do so before it, or has been
approved by `a` in it. -/
theorem C129_allowance_from_approve (w : World) {ts : List Tx} (hp : ∀ t ∈ ts, Possible acct t) {tok a b : Addr}
    (h1 : 0 < (((run h w ts).led tok).allow a b).amount) :
    0 < ((w.led tok).allow a b).amount ∨ ∃ t ∈ ts, ∃ x, 0 < x ∧ Approves t tok a b x := by
  induction ts generalizing w with
  | nil => exact .inl h1
  | cons t ts ih =>
    rcases ih (exec h w t) (fun u q => hp u (by simp [q])) h1 with k | ⟨u, hu, x, hx⟩
    · by_cases hlt : ((w.led tok).allow a b).amount < (((exec h w t).led tok).allow a b).amount
      · exact .inr ⟨t, by simp, _, k, C129_only_approve w (hp t (by simp)) k hlt⟩
      · left; omega
    · exact .inr ⟨u, by simp [hu], x, hx⟩

/-- **C129** An account that starts without allowances and never signs an `approve` of a positive
amount has none after any history, however much it uses the contracts. -/
theorem C129_never_approved {ts : List Tx} (hp : ∀ t ∈ ts, Possible acct t) {a : Addr}
    (h0 : Phoenix.Spec.NoAllowance a w0.led) (hn : ∀ t ∈ ts, ∀ tok b x, 0 < x → ¬ Approves t tok a b x) :
    Phoenix.Spec.NoAllowance a (run h w0 ts).led := by
  intro tok b
  by_contra hk
  rcases C129_allowance_from_approve w0 hp (not_le.mp hk) with k | ⟨t, ht, x, hx, k⟩
  · exact absurd (h0 tok b) (not_le.mpr k)
  · exact hn t ht tok b x hx k

/-- **C129** So an account that never approved anybody can lose tokens only in transactions it signs. -/
theorem C129_unsigned_keeps (hh : HostOK h acct) (g : Genesis acct w0) {ts us : List Tx} (hp : ∀ t ∈ ts, Possible acct t)
    (hu : ∀ t ∈ us, Possible acct t) {a : Addr} (ha : acct a) (h0 : Phoenix.Spec.NoAllowance a w0.led)
    (hn : ∀ t ∈ ts, ∀ tok b x, 0 < x → ¬ Approves t tok a b x)
    (hs : ∀ t ∈ us, t.ctx.signed a = false) (tok : Addr) :
    (run h w0 ts).led.bal tok a ≤ (run h (run h w0 ts) us).led.bal tok a :=
  C77_silent_account_keeps hh g hp hu ha (C129_never_approved hp h0 hn) hs tok

/-- account 1 has provided liquidity to two pools and approved nobody -/
theorem ex_never : ∀ t ∈ Example.setup ++ Example.liquidity, ∀ tok b x, 0 < x → ¬ Approves t tok 1 b x := by
  intro t ht tok b x _
  simp only [Example.setup, Example.liquidity, List.cons_append, List.nil_append, List.mem_cons, List.not_mem_nil, or_false] at ht
  rcases ht with rfl | rfl | rfl | rfl | rfl | rfl | rfl <;> rintro ⟨-, e, h⟩ <;> simp at h

example : Phoenix.Spec.NoAllowance 1 (run Example.host Example.start (Example.setup ++ Example.liquidity)).led :=
  C129_never_approved ex_setup (fun _ _ => le_refl _) ex_never

/-- it approves account 2 for 500; account 2 spends 200 of it; a swap of account 1 leaves the rest -/
def exAllow : List Tx :=
  [ ⟨Example.by' 1, .token 20 (.approve 1 2 500 1000)⟩,
    ⟨Example.by' 2, .token 20 (.transferFrom 2 1 2 200)⟩,
    ⟨Example.by' 1, .xyk Example.pool1 (.swap 1 20 1000 none none none none)⟩ ]

example : ((List.range 4).map fun n => (((run Example.host Example.start (Example.setup ++ Example.liquidity ++ exAllow.take n)).led 20).allow 1 2).amount) =
      [0, 500, 300, 300] ∧
    Approves ⟨Example.by' 1, .token 20 (.approve 1 2 500 1000)⟩ 20 1 2 500 ∧
    ¬ CallsToken ⟨Example.by' 1, .xyk Example.pool1 (.swap 1 20 1000 none none none none)⟩ 20 := by
  refine ⟨by decide +kernel, ⟨by decide, 1000, rfl⟩, ?_⟩
  rintro ⟨op, h⟩
  simp at h

end Phoenix.Props.World
