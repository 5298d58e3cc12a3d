import Verif.Model.IRLS
import Verif.Model.Ops
/-!
# The client loop irls.h is made for: repeated `clear`, `add_mJ`, `compute`, `x += get_mu()`

```
for(;;){
    irls.clear();
    for(int i=0; i < N; i++)
        irls.add_mJ(y[i] - J[i]*x, J[i]);
    irls.compute();
    x += irls.get_mu();
}
```
irls.h has no loop of its own ("performs iterative reweighted least squares", irls.h:99): the iteration is the client's, and each
pass consists of the calls modelled in Model/IRLS.
-/
namespace TooN.IRLS
open scoped Classical
noncomputable section

/-- what is in the memory the calls of one pass use uninitialised: `add i` in the `i`-th `add_mJ` (irls.h:127), `u` and `w` in
`compute` (wls.h:210-219, Cholesky.h) -/
structure Junk where
  add : Nat → Vec ℝ
  u : Vec ℝ
  w : Vec ℝ

/-- one pass: `clear` (irls.h:144-148), `N` calls of `add_mJ` (irls.h:117-131) with `m = y[i] - J[i]*x` (operators.hh:198-208),
`compute` (wls.h:210-219) -/
def pass (r : Reweight) (n N : Nat) (y : Vec ℝ) (J : Mat ℝ) (g : Junk) (x : Vec ℝ) (s : St) : St :=
  compute n g.u g.w
    (forN N (fun i s => addmJ r n (y i - Ops.dot n (J i) x) (J i) (g.add i) s) (clear n s))

/-- `k` passes, with `x += get_mu()` (vector.hh:317-323) after each.  `none`: a `compute` left no solution. -/
def iterate (r : Reweight) (n N : Nat) (y : Vec ℝ) (J : Mat ℝ) (g : Nat → Junk) (x : Vec ℝ) (s : St) :
    Nat → Option (Vec ℝ × St)
  | 0 => some (x, s)
  | k + 1 =>
    match iterate r n N y J g x s k with
    | none => none
    | some (x, s) =>
      let t := pass r n N y J (g k) x s
      match t.wls.mu with
      | none => none
      | some mu => some (WLS.plusEqV n 0 mu x, t)

end
end TooN.IRLS
