import Verif.All

/-!
# Axiom check

Runs during the build: collects the axioms of every theorem of the project and fails when
one of them uses anything but Lean's three standard axioms.
-/

open Lean

run_cmd do
  let env ← getEnv
  let allowed : List Name := [``propext, ``Classical.choice, ``Quot.sound]
  let mut count : Nat := 0
  for (name, info) in env.constants.map₁.toList do
    if (`Verif).isPrefixOf name then
      if let .thmInfo _ := info then
        let axs ← collectAxioms name
        for a in axs do
          unless allowed.contains a do
            throwError "{name} depends on {a}"
        count := count + 1
  logInfo m!"{count} theorems, axioms within {allowed}"
