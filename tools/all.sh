set -e
cd /verif
python3 /tmp/gen/props.py | head -1
python3 /tmp/gen/design.py
python3 /tmp/gen/manifest.py
(for f in lean/Verif/Props/*.lean; do echo "import Verif.Props.$(basename $f .lean)"; done) > lean/Verif.lean
(cd lean && lake build > /tmp/lb.out 2>&1) || { grep -A5 'error:' /tmp/lb.out | head; exit 1; }
mkdir -p tools; cp /tmp/gen/*.py /tmp/gen/*.txt /tmp/gen/*.md /tmp/gen/all.sh tools/
git add -A; git commit -qm "$1"; git log --oneline | head -1
