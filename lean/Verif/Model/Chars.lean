import Lean.Elab.Term

/-! # Character lists

`cs!"abc"` is the list `['a', 'b', 'c']`: the same list as `"abc".toList`, but without a string, so that the kernel computes with it quickly. -/

namespace Verif.Chars

open Lean Elab Term

/-- Notation only (no counterpart in the code): a list of characters. -/
elab:max "cs!" s:str : term => do
  let chr (c : Char) : Expr := mkApp (mkConst ``Char.ofNat) (mkRawNatLit c.toNat)
  return s.getString.toList.foldr (fun c e => mkApp3 (mkConst ``List.cons [0]) (mkConst ``Char) (chr c) e)
    (mkApp (mkConst ``List.nil [0]) (mkConst ``Char))

example : cs!"ab.{" = "ab.{".toList := by decide

end Verif.Chars
