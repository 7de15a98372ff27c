import Verif.Lemmas.Deployed
import Verif.Props.World
/-! C115: every contract was there at the start or was deployed by a factory or a pool that names it. -/
namespace Phoenix.Props.World
open Phoenix Phoenix.World Phoenix.World.Spec

variable {h : Host} {acct : Accounts} {w0 : World} {ts : List Tx}

/-- **C115** After any history, every contract was there at the start, or is the pool a factory lists
for a pair of tokens, the router a factory names, or the share token or stake contract a pool names;
each of them at the address derived from its deployer, with the code that its role needs. -/
theorem C115_origin (hh : HostOK h acct) (g : Genesis acct w0) (hp : ∀ y ∈ ts, Possible acct y) {x : Addr}
    (hx : (run h w0 ts).code x ≠ .none) : Origin h w0 (run h w0 ts) x :=
  run_origin hh (Phoenix.World.genesis_inv g) hp (fun _ e => .start e) x hx

/-- **C115** No code is ever replaced or removed. -/
theorem C115_code_stays (hh : HostOK h acct) (g : Genesis acct w0) (hp : ∀ y ∈ ts, Possible acct y) {us : List Tx}
    (hp' : ∀ y ∈ us, Possible acct y) {x : Addr} (hx : (run h w0 ts).code x ≠ .none) :
    (run h w0 (ts ++ us)).code x = (run h w0 ts).code x := by
  obtain ⟨I, -⟩ := run_inv hh (Phoenix.World.genesis_inv (h := h) g) hp
  obtain ⟨-, gr⟩ := run_inv hh I hp'
  have : run h w0 (ts ++ us) = run h (run h w0 ts) us := by simp [run, List.foldl_append]
  rw [this]; exact gr.code x hx

/-- **C115** Only accounts and contracts that existed before them are involved: nobody can put a
vesting, reward, trader or factory contract into the protocol after the start. -/
theorem C115_no_new_kind (hh : HostOK h acct) (g : Genesis acct w0) (hp : ∀ y ∈ ts, Possible acct y) {x : Addr}
    (hx : (run h w0 ts).code x ∈ [Code.vesting, .rewards, .trader, .factory]) : w0.code x = (run h w0 ts).code x := by
  have hn : (run h w0 ts).code x ≠ .none := by intro e; rw [e] at hx; simp at hx
  obtain ⟨-, gr⟩ := run_inv hh (Phoenix.World.genesis_inv (h := h) g) hp
  cases C115_origin hh g hp hn with
  | start e => exact (gr.code x e).symm
  | pool F f a b hf hp e k => rcases k with k | k <;> rw [k] at hx <;> simp at hx
  | router F f hf hm e k => rw [k] at hx; simp at hx
  | share P a b hP hr e k => rw [k] at hx; simp at hx
  | stake P a b hP hr e k => rw [k] at hx; simp at hx

/-! In the example history six contracts are deployed, with these origins. -/
section
open Example
example : let w := run host start (setup ++ liquidity)
    [5050, pool1, pool2, 10602062, 20602021, 20602122].map w.code = [.multihop, .xyk, .stable, .token, .stake, .stake] ∧
    [5050, pool1, pool2, 10602062, 20602021, 20602122].map start.code = List.replicate 6 .none := by decide +kernel
example : Origin host start (run host start (setup ++ liquidity)) pool2 :=
  C115_origin ex_host ex_genesis ex_setup (by decide +kernel)
example : start.code 50 = (run host start (setup ++ liquidity)).code 50 :=
  C115_no_new_kind ex_host ex_genesis ex_setup (by decide +kernel)
example : (run host start (setup ++ liquidity)).code pool1 = (run host start setup).code pool1 :=
  C115_code_stays ex_host ex_genesis (fun y hy => ex_setup y (by simp [hy])) (fun y hy => ex_setup y (by simp [hy]))
    (by decide +kernel)
end

end Phoenix.Props.World
