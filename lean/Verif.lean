import Verif.Audit
