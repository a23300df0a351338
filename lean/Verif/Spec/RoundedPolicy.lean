import Verif.Spec.NetOptimal
import Verif.Spec.Rounding

/-!
# Ways to decide with rounded numbers
-/

set_option autoImplicit false

namespace Bbn

variable {α : Type} [Field α] [LinearOrder α]

/-- The absolute values of what `Net.worthTo` adds up. -/
def Net.worthSizeTo (n : Net α) (δ : String → World → α) (later : List String) (d : String) (w : World) : α :=
  sumWorlds (n.hiddenFrom later d) (fun w => (n.chanceTables.map (fun f => n.prob f w)).prod *
    (later.map (fun e => δ e w)).prod * n.askedSize "" w) w

/-- `Net.Strategy`, but the probabilities of the outcomes sum up to one after at most two roundings. -/
structure Net.RoundedStrategy (n : Net α) (u : α) (ds : List String) (d : String) (δ : World → α) : Prop where
  nonneg : ∀ w, n.Allowed w → 0 ≤ δ w
  one : ∀ w, n.Allowed w → Within u 2 (∑ k ∈ Finset.range (n.count d), δ (w.set d k)) 1
  known : ∀ w w', n.Allowed w → n.Allowed w' → (∀ s, n.Known (ds ++ [d]) s → w s = w' s) → δ w = δ w'

/-- To take the outcome `c d w` for certain. -/
def certainly (c : String → World → Nat) (d : String) (w : World) : α := if w d = c d w then 1 else 0

/-- The later decisions taken as `c` says, the outcome that `c` says for `d` is worth more than any other, by more than
`e` times the magnitudes of what is compared. -/
def Net.ClearAt (n : Net α) (e : α) (c : String → World → Nat) (later : List String) (d : String) (w : World) : Prop :=
  c d w < n.count d ∧ ∀ k < n.count d, k ≠ c d w →
    n.worthTo (certainly c) later d (w.set d k) + e * (n.worthSizeTo (certainly c) later d (w.set d (c d w)) +
      n.worthSizeTo (certainly c) later d (w.set d k)) < n.worthTo (certainly c) later d (w.set d (c d w))

end Bbn
