cd /tmp/work; python3 props.py; python3 manifest.py; python3 mklog.py; python3 mkauto.py; cp *.py *.sh *.json /verif/tools/; cp /verif/lean/Verif.lean /tmp/dev/Verif.lean
