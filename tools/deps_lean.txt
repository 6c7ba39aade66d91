import Verif
/-! Dumps, for every declaration of the development, the declarations it uses (input of mutate.py). -/
open Lean
run_cmd do
  let env ← getEnv
  let mut out := ""
  for (n, ci) in env.constants.map₁.toList do
    if (privateToUserName n).getRoot == `CML then
      let ds := ci.getUsedConstantsAsSet.toList.filter fun d => (privateToUserName d).getRoot == `CML
      out := out ++ toString n ++ "\t" ++ " ".intercalate (ds.map toString) ++ "\n"
  IO.FS.writeFile "/tmp/deps.tsv" out
