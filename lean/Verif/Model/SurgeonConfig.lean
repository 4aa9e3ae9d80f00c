import Verif.Model.ModelRef
import Verif.Model.TokenSurgeon

/-! # The configuration written by mergekit-tokensurgeon (`/repo/mergekit/scripts/tokensurgeon.py`) -/

namespace Verif.Surgeon

open Verif.ModelRef (Str Cfg CfgError getParts setConfigValue)

/-- The keys copied from the donor, tokensurgeon.py:216-223. -/
def specialKeys : List Str := [cs!"pad_token_id", cs!"eos_token_id", cs!"bos_token_id", cs!"unk_token_id", cs!"mask_token_id", cs!"padding_side"]

/-- The loop tokensurgeon.py:216-225. -/
def copySpecial {V : Type} (donor : Cfg V) : List Str → Cfg V → Except CfgError (Cfg V)
  | [], out => .ok out
  | k :: ks, out =>
    match getParts donor [k] with
    | .error _ => copySpecial donor ks out
    | .ok v =>
      match setConfigValue out k v with
      | .error e => .error e
      | .ok out => copySpecial donor ks out

/-- `new_vocab_size`, tokensurgeon.py:756-760. -/
def newSize {R : Type} (newEmbed newHead : Option (Emb R)) : Option Nat :=
  match newEmbed, newHead with
  | some e, _ => some e.rows
  | none, some h => some h.rows
  | none, none => none

/-- The configuration of `get_out_arch_info`, tokensurgeon.py:202-226: `number` makes a value of a number or `None`, `vocabKey` is the architecture's
`vocab_size_config_key`. -/
def outConfig {V : Type} (number : Option Nat → V) (vocabKey : Option Str) (size : Option Nat) (model donor : Cfg V) : Except CfgError (Cfg V) :=
  match setConfigValue model ((vocabKey.filter (· ≠ [])).getD cs!"vocab_size") (.leaf (number size)) with
  | .error e => .error e
  | .ok out => copySpecial donor specialKeys out

end Verif.Surgeon
