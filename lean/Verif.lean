import Verif.All
import Verif.Axioms
